import Verif.Proof.RtEvid4
/-!
# What a call does up to its first context switch keeps the evidence
-/
namespace Neco.Rt
open Neco.Err

theorem about_self {i : Nat} : (∀ c m, (Ev.put c i m).about i = true) ∧ (∀ m rd, (Ev.grant m i rd).about i = true) ∧ (∀ m, (Ev.release m i).about i = true) ∧
    (∀ L, (Ev.nowait L i).about i = true) ∧ (∀ c m, (Ev.take c i m).about i = true) := by simp [Ev.about]

/-- close a goal `CallOk` for a result that promises nothing -/
macro "cok" : tactic => `(tactic| (simp [CallOk, OK, CANCELED, CLOSED, TIMEDOUT, EMPTY, BUSY, PERM, NOTFOUND, INVAL, NOTGENERATOR, NOSIGWATCH, NEGWAITGRP, NOTSUSPENDED]; done))

macro "nov" : tactic => `(tactic| (simp [OK, CANCELED, CLOSED, TIMEDOUT, EMPTY, BUSY, PERM, NOTFOUND, INVAL, NOTGENERATOR, NOSIGWATCH, NEGWAITGRP, NOTSUSPENDED]; done))

section
variable {i : Nat} {s : S} {c : Call} (b : Beg i s c)
include b

theorem Beg.own {L : LName} : ∀ n ∈ s.lists L, n.owner ≠ i := fun n hn => b.fr L n hn

theorem chanSend_coe (k : Nat) (m : Msg) (dl : Int) (hc : c = .send k m dl ∨ (c = .genYield m dl ∧ (s.co i).gen = some k)) : CoE i (chanSend s i k m dl) := by
  have hsp : ∀ v, v ≠ OK → CallOk i c (s.co i).gen v (s.co i).rdat [] s.clock := by
    intro v hv; rcases hc with rfl | ⟨rfl, _⟩ <;> simp [CallOk, hv]
  unfold chanSend; split
  · exact b.fault
  split
  · exact b.retv .refl (by simp) (by nov) (by nov) (hsp _ (by nov))
  split
  · rename_i h; exact b.uncan h (hsp _ (by nov))
  rename_i ch _ _ _
  have o1 : Out i s (note s (.put k i m)) [.put k i m] := Out.refl.note (by simp [Ev.about])
  have hn : Ntr i (note s (.put k i m)) (sendTry (note s (.put k i m)) k m ch).1 := .sendTry (b.own (L := .chanQ k))
  have o2 := o1.ntr hn
  have hes : ∀ e ∈ [Ev.put k i m], isCallOf i e = false := by simp [isCallOf]
  have hok : ∀ d, CallOk i c (s.co i).gen OK d [.put k i m] s.clock := by
    intro d; rcases hc with rfl | ⟨rfl, hg⟩
    · simp [CallOk, isPut, List.filter_cons]
    · simp [CallOk, isPut, List.filter_cons, hg]
  have hco : (sendTry (note s (.put k i m)) k m ch).1.co i = s.co i := hn.co
  have hsco := hn.sco
  dsimp only
  generalize (sendTry (note s (.put k i m)) k m ch).1 = t at *
  split
  · exact b.retvR o2 hes (by nov) (by nov) (by rw [hco]; exact hok _)
  · unfold sendRest; split
    · exact b.retv (o2.eqs) hes (by nov) (by nov) (by show CallOk i c (t.co i).gen OK _ _ _; rw [hco]; exact hok _)
    · have q1 := b.push o2 hsco (by rw [hco]) (.chanQ k)
      have q2 : OutQ i s (setChan (push t (.chanQ k) (.co i)) k { ch with qrecv := false }) [.put k i m] (some (.chanQ k)) := q1.eqs
      have q3 := q2.upd (f := fun k => { k with smsg := m }) (fun k => by simp)
      refine b.pause (q3.eqs) (by simp) hes ?_ ?_
      · intro _ _ h hn; exact hn (h.mpr (by simp))
      · intro h1 h2 _
        unfold Own
        rw [h2, h1]
        rcases hc with rfl | ⟨rfl, hg⟩
        · simp [isPut, List.filter_cons]
        · simp [isPut, List.filter_cons, upd_co, hco, hg]

theorem recvNow_out {k : Nat} {ch : Chan} {m : Msg} {o : Option Nat} {t : S} (e : recvNow s k i ch = some (m, o, t)) :
    (Out i s t [.take k i m] ∧ t.co = s.co ∧ t.sco = s.sco) ∨ (t.fault = true) := by
  have hb : (Ev.take k i m).about i = true := by simp [Ev.about]
  unfold recvNow at e
  split at e
  · split at e <;> cases e
    · left; exact ⟨Out.note (Out.refl.eqs) hb, rfl, rfl⟩
    · rename_i j q hq _
      have hq' : Ntr i s (setList s (.chanQ k) q) := .setList (fun h => b.own _ h rfl) (fun h => b.own (L := .chanQ k) (.co i) (by rw [hq]; exact List.mem_cons_of_mem _ h) rfl)
      left; exact ⟨Out.note ((Out.refl.ntr hq').eqs) hb, rfl, rfl⟩
    · right; rfl
  · split at e
    · cases e
    · rename_i n q hq
      split at e
      · cases e
      · split at e <;> cases e
        · have hq' : Ntr i s (setList s (.chanQ k) q) := .setList (fun h => b.own _ h rfl) (fun h => b.own (L := .chanQ k) (.co i) (by rw [hq]; exact List.mem_cons_of_mem _ h) rfl)
          left; exact ⟨Out.note ((Out.refl.ntr hq').eqs) hb, rfl, rfl⟩
        · right; rfl

theorem chanRecv_coe (hL : InvL s) (hC : ∀ k, QOk s k) (hft : s.fault = false) (k : Nat) (tr : Bool) (dl : Int) (hc : (c = .recv k dl ∧ tr = false) ∨ (c = .tryrecv k ∧ tr = true)) : CoE i (chanRecv s i k tr dl) := by
  have hsp : ∀ v, v ≠ OK → CallOk i c (s.co i).gen v (s.co i).rdat [] s.clock := by
    intro v hv; rcases hc with ⟨rfl, _⟩ | ⟨rfl, _⟩ <;> simp [CallOk, hv]
  unfold chanRecv; split
  · exact b.fault
  rename_i ch hch
  split
  · exact b.retv .refl (by simp) (by nov) (by nov) (hsp _ (by nov))
  split
  · rename_i h; exact b.uncan h (hsp _ (by nov))
  split
  · rename_i m snd t he
    rcases recvNow_out b he with ⟨o, hco, hsco⟩ | hf
    · have o' := o.upd (f := fun k => { k with rdat := m }) (fun k => by simp)
      refine b.resOpt o' (by simp [isCallOf]) snd (by nov) (by nov) ?_
      rcases hc with ⟨rfl, _⟩ | ⟨rfl, _⟩ <;> simp [CallOk, isDeliv, List.filter_cons, upd_co, OK, CLOSED]
    · have := (QOk.recvNow hC hL hch he).1; rw [hf, hft] at this; simp at this
  · rcases hc with ⟨rfl, rfl⟩ | ⟨rfl, rfl⟩
    · simp only [Bool.false_eq_true, if_false]
      have q1 := b.push .refl rfl rfl (.chanQ k)
      have q2 : OutQ i s (setChan (push s (.chanQ k) (.co i)) k { ch with qrecv := true }) [] (some (.chanQ k)) := q1.eqs
      have q3 := q2.upd (f := fun k => { k with cclosed := false }) (fun k => by simp)
      refine b.pause (q3.eqs) (by simp) (by simp) ?_ ?_
      · intro _ _ h hn; exact hn (h.mpr (by simp))
      · intro h1 h2 h3
        unfold Own
        rw [h2, h1]
        left; exact ⟨h3.mpr (by simp), rfl, by simp [upd_co]⟩
    · simp only [if_true]
      exact b.retv .refl (by simp) (by nov) (by nov) (hsp _ (by nov))

theorem chanClose1_out (k : Nat) (ch : Chan) (a : Aft) : Out i s (chanClose1 s i k ch a) [] := by
  unfold chanClose1; dsimp only
  have o1 : Out i s (setChan s k { ch with sclosed := true }) [] := Out.refl.eqs
  split
  · exact o1.upd (f := fun k => { k with pc := .go a }) (fun k => by simp)
  · have o2 := o1.ntr (.closeLoop (c := k) (q := (setChan s k { ch with sclosed := true }).lists (.chanQ k)) (fun h => b.own _ h rfl) (b.own (L := .chanQ k)))
    have o3 : Out i s (closeEnd (closeLoop (setChan s k { ch with sclosed := true }) k ((setChan s k { ch with sclosed := true }).lists (.chanQ k))) k) [] := o2.eqs
    generalize closeEnd (closeLoop (setChan s k { ch with sclosed := true }) k ((setChan s k { ch with sclosed := true }).lists (.chanQ k))) k = t at o3
    unfold yfsr
    generalize (if t.nresumers > 0 then 1 else 0) + 0 = n
    have o4 : Out i s (setPc t i (.yck n a)) [] := o3.upd (f := fun k => { k with pc := .yck n a }) (fun k => by simp)
    exact o4.eqs

omit b in
theorem chanClose1_retPc (k : Nat) (ch : Chan) (v : Int) : retPc ((chanClose1 s i k ch (.ret v)).co i).pc = some v := by
  unfold chanClose1; dsimp only; split
  · simp [setPc_co, retPc]
  · simp [yfsr, coyield_co, retPc]

omit b in
theorem selScan_get {t : S} {n : Nat} {cs : List Nat} {k c : Nat} (h : selScan t n cs = some (k, c)) : n ≤ k ∧ cs[k - n]? = some c := by
  induction cs generalizing n with
  | nil => simp [selScan] at h
  | cons x cs ih =>
    have aux : selScan t (n + 1) cs = some (k, c) → n ≤ k ∧ (x :: cs)[k - n]? = some c := fun h => by
      obtain ⟨h1, h2⟩ := ih h
      refine ⟨by omega, ?_⟩
      rw [show k - n = (k - (n + 1)) + 1 by omega]; simpa using h2
    unfold selScan at h; split at h
    · exact aux h
    · split at h
      · cases h; simp
      · exact aux h

omit b in
theorem selPush_comem (t : S) (k : Nat) (cs : List Nat) (j : Nat) (L : LName) : .co j ∈ (selPush t i k cs).lists L ↔ .co j ∈ t.lists L := by
  induction cs generalizing t k with
  | nil => rfl
  | cons x cs ih =>
    simp only [selPush]; rw [ih]
    show Node.co j ∈ (push t (.chanQ x) (.case i k)).lists L ↔ _
    rw [mem_push]; simp

theorem Beg.selGot {t : S} {es : List Ev} {cs : List Nat} {k ck : Nat} {v : Int} (o : Out i s t es) (hp : (t.co i).pc = .selGot k ck v) (hes : ∀ e ∈ es, isCallOf i e = false)
    (hc : selCs c = some cs) (hk : cs[k]? = some ck) (hd : es.filter isDeliv = [] ∨ ∃ m, es.filter isDeliv = [.take ck i m]) : CoE i t := by
  obtain ⟨h, hsn⟩ := b.base o hes
  refine ⟨h.dd, h.cc, h.st, ?_, ?_, ?_, ?_, ?_, ?_⟩
  · rw [hp]; simp
  · rw [hp]; simp
  · rw [hp]; simp [retPc]
  · rw [hp]; intro k' c' v' e; cases e
    rw [hsn, o.ca, b.ca]; exact ⟨⟨cs, hc, hk⟩, hd⟩
  · rw [hp]; simp [condPc]
  · rw [hp]; simp

theorem chanSelect_coe (hL : InvL s) (hC : ∀ k, QOk s k) (hft : s.fault = false) (cs : List Nat) (tr : Bool) (dl : Int)
    (hc : (c = .select cs dl ∧ tr = false) ∨ (c = .tryselect cs ∧ tr = true)) : CoE i (chanSelect s i cs dl tr) := by
  have hsp : ∀ v, v < 0 → CallOk i c (s.co i).gen v (s.co i).rdat [] s.clock := by
    intro v hv; rcases hc with ⟨rfl, _⟩ | ⟨rfl, _⟩ <;> simp only [CallOk] <;> intro h <;> omega
  have hcs : selCs c = some cs := by rcases hc with ⟨rfl, _⟩ | ⟨rfl, _⟩ <;> rfl
  unfold chanSelect; split
  · exact b.fault
  split
  · rename_i h; exact b.uncan h (hsp _ (by nov))
  split
  · rename_i k ck hsc
    have hk := (selScan_get hsc).2
    rw [Nat.sub_zero] at hk
    split
    · exact b.fault
    rename_i ch hch
    split
    · exact b.selGot (Out.refl.upd (f := fun k => { k with pc := _ }) (fun k => by simp)) (by simp [upd_co]; rfl) (by simp) hcs hk (.inl rfl)
    split
    · rename_i m snd t he
      rcases recvNow_out b he with ⟨o, hco, hsco⟩ | hf
      · have o2 : Out i s { t with chan := fun j => if j = ck then (t.chan ck).map (fun ch => { ch with lmsg := m }) else t.chan j } [.take ck i m] := o.eqs
        dsimp only
        revert o2
        generalize ({ t with chan := fun j => if j = ck then (t.chan ck).map (fun ch => { ch with lmsg := m }) else t.chan j } : S) = u
        intro o2
        have o3 : Out i s (setPc u i (.selGot k ck OK)) [.take ck i m] := o2.upd (f := fun x => { x with pc := .selGot k ck OK }) (fun k => by simp)
        have hpc : ((setPc u i (.selGot k ck OK)).co i).pc = .selGot k ck OK := by simp [setPc_co]
        cases snd with
        | none => exact b.selGot o3 hpc (by simp [isCallOf]) hcs hk (.inr ⟨m, by simp [isDeliv, List.filter_cons]⟩)
        | some r => exact b.selGot (t := scoResume (setPc u i (.selGot k ck OK)) r) o3.eqs hpc (by simp [isCallOf]) hcs hk (.inr ⟨m, by simp [isDeliv, List.filter_cons]⟩)
      · have := (QOk.recvNow hC hL hch he).1; rw [hf, hft] at this; simp at this
    · exact b.fault
  · rcases hc with ⟨rfl, rfl⟩ | ⟨rfl, rfl⟩
    · simp only [Bool.false_eq_true, if_false]
      have o1 : Out i s (upd s i (fun k => { k with retIdx := -1 })) [] := Out.refl.upd (fun k => by simp)
      have hco : (selPush (upd s i (fun k => { k with retIdx := -1 })) i 0 cs).co i = { s.co i with retIdx := -1 } := by simp [upd_co]
      have o2 : Out i s (selPush (upd s i (fun k => { k with retIdx := -1 })) i 0 cs) [] := by
        refine ⟨lg_of_log (by simp), ?_, ?_, ?_, ?_, ?_, by simp, by simp⟩
        · rw [hco]
        · rw [hco]
        · rw [hco]; exact fun h => h
        · rw [hco]; exact fun h => h
        · intro L h; rw [selPush_comem] at h; exact h
      have hsco : (selPush (upd s i (fun k => { k with retIdx := -1 })) i 0 cs).sco = s.sco := by simp
      generalize selPush (upd s i (fun k => { k with retIdx := -1 })) i 0 cs = u at *
      refine b.pause ((b.free o2 hsco (by rw [hco])).eqs) (by simp) (by simp) ?_ ?_
      · intro _ _ _; simp [reason, hco]
      · intro h1 h2 _
        unfold Own
        rw [h2, h1]
        left; simp [hco]
    · simp only [if_true]
      exact b.retv .refl (by simp) (by nov) (by nov) (hsp _ (by nov))

theorem finishLock_coe {t : S} (o : Out i s t []) (hs : t.sco = s.sco) (hp : (t.co i).paused = (s.co i).paused) (m : Nat) (rd : Bool) (dl : Int)
    (hc : c = if rd = true then .rdlock m dl else .lock m dl) : CoE i (finishLock t i m rd dl (.lock rd)) := by
  unfold finishLock; dsimp only
  have o1 := o.upd (f := fun k => { k with rlocked := rd }) (fun k => by simp)
  have q1 := b.push o1 hs (by simpa [upd_co] using hp) (.muQ m)
  refine b.pause q1.eqs (by simp) (by simp) ?_ ?_
  · intro _ _ h hn; exact hn (h.mpr (by simp))
  · intro h1 h2 h3
    unfold Own
    rw [h2]
    cases rd <;> simp [hc] <;> exact .inl (h3.mpr (by simp))

theorem doStart_coe (hw : i ≤ s.sco.nextId) (g : Option Nat) (hok : ∀ g v d es clk, CallOk i c g v d es clk) : CoE i (doStart s i g) := by
  have hne : i ≠ s.sco.nextId + 1 := by omega
  have hco : (doStart s i g).co i = { s.co i with pc := .ret OK, lastid := s.sco.nextId + 1 } := by simp [doStart, hne, upd_co]
  refine b.retX (es := [.start (some i) (s.sco.nextId + 1)]) (v := OK) ⟨?_, ?_, ?_, ?_, ?_, ?_, rfl, rfl⟩ (by simp [isCallOf]) (by rw [hco]; rfl) (by nov) (by nov) (hok _ _ _ _ _)
  · simp [lg, doStart, List.filter_cons, Ev.about]
  · rw [hco]
  · rw [hco]
  · rw [hco]; exact fun h => h
  · rw [hco]; exact fun h => h
  · exact fun _ h => h

theorem doCall_coe (hL : InvL s) (hC : ∀ k, QOk s k) (hft : s.fault = false) (hw : i ≤ s.sco.nextId) (h0 : s.clock ≥ s.clock) : CoE i (doCall s i c) := by
  have plain : ∀ v, v ≠ CANCELED → v ≠ TIMEDOUT → CallOk i c (s.co i).gen v (s.co i).rdat [] s.clock → CoE i (retv s i v) := fun v h1 h2 h3 =>
    b.retv .refl (by simp) (fun h => absurd h h1) (fun h => absurd h h2) h3
  cases hc : c with
  | none => exact absurd hc b.ne
  | start => exact doStart_coe b hw _ (by subst hc; intros; trivial)
  | genStart =>
    subst hc
    have b' : Beg i { s with nchan := s.nchan + 1, chan := fun k => if k = s.nchan then some { rc := 1 } else s.chan k } .genStart :=
      ⟨b.ca, b.ne, b.sn, b.dd, b.cc, b.jb, b.fr, b.cur, b.np, b.pa, b.pc⟩
    exact doStart_coe b' hw _ (by intros; trivial)
  | yield => subst hc; exact b.yld .refl (by simp) (by nov) (by nov) trivial
  | sleep dl =>
    subst hc
    simp only [doCall, doSleep]; split
    · rename_i h
      exact b.retv .refl (by simp) (by nov) (fun _ => ⟨dl, rfl, h⟩) (by cok)
    · refine b.pause ((b.free .refl rfl rfl).eqs) (by simp) (by simp) ?_ ?_
      · intro _ _ _; simp [reason]
      · intro _ _ _; simp [Own]
  | join id dl =>
    subst hc
    simp only [doCall, doJoin]; split
    · exact b.retv (Out.refl.note (by simp [Ev.about])) (by simp [isCallOf]) (by nov) (by nov) (by simp [CallOk])
    split
    · rename_i h; exact b.code h rfl (fun v hv => by simp [CallOk, hv])
    split
    · exact b.retv Out.refl.dlClear (by simp) (by nov) (by nov) (by cok)
    · refine b.pause (b.push Out.refl.dlClear rfl (by simp [dlClear_co]) (.joinQ id)) (by simp) (by simp) ?_ ?_
      · intro _ _ h hn; exact hn (h.mpr (by simp))
      · intro _ h2 h3; unfold Own; rw [h2]; exact .inl (h3.mpr (by simp))
  | suspend dl =>
    subst hc
    simp only [doCall, doSuspend]
    refine b.pause ((b.free .refl rfl rfl).upd (f := fun k => { k with suspended := true }) (fun k => by simp)).eqs (by simp) (by simp) ?_ ?_
    · intro h _ _ hr; simp only [reason] at hr; rw [h] at hr; simp at hr
    · intro _ h2 _; unfold Own; rw [h2]; trivial
  | resume id =>
    subst hc
    simp only [doCall, doResume]; split
    · exact plain _ (by nov) (by nov) (by cok)
    split
    · exact plain _ (by nov) (by nov) (by cok)
    · exact b.retvR (Out.refl.note (by simp [Ev.about])) (by simp [isCallOf]) (by nov) (by nov) (by cok)
  | exit =>
    subst hc
    exact (b.base (Out.refl.upd (f := fun k => { k with pc := .exitRun true }) (fun k => by simp)) (by simp)).1.plain (by simp [upd_co, plainPc])
  | getid =>
    subst hc
    exact plain _ (by simp [CANCELED]) (by simp [TIMEDOUT]) rfl
  | lastid =>
    subst hc
    exact plain _ (by simp [CANCELED]) (by simp [TIMEDOUT]) trivial
  | starterid =>
    subst hc
    exact plain _ (by simp [CANCELED]) (by simp [TIMEDOUT]) trivial
  | stats =>
    subst hc
    exact b.retv (Out.refl.note (by simp [Ev.about])) (by simp [isCallOf]) (by nov) (by nov) trivial
  | chMake cap =>
    subst hc
    exact b.retv Out.refl.eqs (by simp) (by simp [CANCELED]) (by simp [TIMEDOUT]) trivial
  | chRetain k =>
    subst hc
    simp only [doCall]; split
    · exact b.fault
    · exact b.retv Out.refl.eqs (by simp) (by nov) (by nov) trivial
  | chRelease k =>
    subst hc
    simp only [doCall]
    have hn : Ntr i s (chanRelease s k) := .eqs (by simp) (by simp) (by simp) (by simp) (by simp) (by simp)
    exact b.retv (Out.refl.ntr hn) (by simp) (by nov) (by nov) trivial
  | send k m dl => subst hc; exact chanSend_coe b k m dl (.inl rfl)
  | bcast k m =>
    subst hc
    simp only [doCall, chanBcast]; split
    · exact b.fault
    split
    · exact plain _ (by nov) (by nov) trivial
    · exact b.yld (Out.refl.ntr (.bcastTry b.own)) (by simp) (by simp [CANCELED]) (by simp [TIMEDOUT]) trivial
  | recv k dl => subst hc; exact chanRecv_coe b hL hC hft k false dl (.inl ⟨rfl, rfl⟩)
  | tryrecv k => subst hc; exact chanRecv_coe b hL hC hft k true MAX (.inr ⟨rfl, rfl⟩)
  | close k =>
    subst hc
    simp only [doCall, chanClose]; split
    · exact b.fault
    split
    · exact plain _ (by nov) (by nov) trivial
    · exact b.retX (chanClose1_out b _ _ _) (by simp) (chanClose1_retPc _ _ _) (by nov) (by nov) trivial
  | select cs dl => subst hc; exact chanSelect_coe b hL hC hft cs false dl (.inl ⟨rfl, rfl⟩)
  | tryselect cs => subst hc; exact chanSelect_coe b hL hC hft cs true MAX (.inr ⟨rfl, rfl⟩)
  | chCase k =>
    subst hc
    simp only [doCall, chanCase]; split
    · exact b.fault
    split
    · exact b.retv (Out.refl.upd (fun k => by simp)) (by simp) (by nov) (by nov) trivial
    · exact plain _ (by nov) (by nov) trivial
  | genYield m dl =>
    subst hc
    simp only [doCall, doGenYield]; split
    · exact plain _ (by nov) (by nov) (by cok)
    · rename_i k hk; exact chanSend_coe b k m dl (.inr ⟨rfl, hk⟩)
  | lock m dl =>
    subst hc
    simp only [doCall, muLock]; split
    · rename_i h; exact b.code h rfl (fun v hv => by simp [CallOk, hv])
    split
    · exact finishLock_coe b Out.refl.dlClear rfl (by simp [dlClear_co]) m false dl rfl
    · exact b.retv (Out.note (Out.refl.dlClear.eqs) (by simp [Ev.about])) (by simp [isCallOf]) (by nov) (by nov) (by simp [CallOk])
  | rdlock m dl =>
    subst hc
    simp only [doCall, muRdlock]; split
    · rename_i h; exact b.code h rfl (fun v hv => by simp [CallOk, hv])
    split
    · exact finishLock_coe b Out.refl.dlClear rfl (by simp [dlClear_co]) m true dl rfl
    · exact b.retv (Out.note (Out.refl.dlClear.eqs) (by simp [Ev.about])) (by simp [isCallOf]) (by nov) (by nov) (by simp [CallOk])
  | trylock m =>
    subst hc
    simp only [doCall, muTrylock]; split
    · exact plain _ (by nov) (by nov) (by cok)
    · exact b.retv (Out.note (Out.refl.eqs) (by simp [Ev.about])) (by simp [isCallOf]) (by nov) (by nov) (by simp [CallOk])
  | tryrdlock m =>
    subst hc
    simp only [doCall, muTryrdlock]; split
    · exact plain _ (by nov) (by nov) (by cok)
    · exact b.retv (Out.note (Out.refl.eqs) (by simp [Ev.about])) (by simp [isCallOf]) (by nov) (by nov) (by simp [CallOk])
  | unlock m =>
    subst hc
    have o1 : Out i s (note s (.release m i)) [.release m i] := Out.refl.note (by simp [Ev.about])
    have o2 := o1.ntr (.fastUnlock (m := m) (b.own (L := .muQ m)))
    simp only [doCall, muUnlock]; split
    · exact b.yld o2 (by simp [isCallOf]) (by nov) (by nov) trivial
    · exact b.yld o2 (by simp [isCallOf]) (by nov) (by nov) trivial
  | wgAdd w d =>
    subst hc
    simp only [doCall, wgAdd]; split
    · exact b.fault
    split
    · exact plain _ (by nov) (by nov) trivial
    · exact b.retv Out.refl.eqs (by simp) (by nov) (by nov) trivial
  | wgDone w =>
    subst hc
    have o1 : Out i s (setWg s w (s.wg w - 1)) [] := Out.refl.eqs
    have n1 : Ntr i (setWg s w (s.wg w - 1)) (setList (setWg s w (s.wg w - 1)) (.wgQ w) []) := .setList (fun h => b.own (L := .wgQ w) _ h rfl) (by simp)
    simp only [doCall, wgDone]; split
    · exact plain _ (by nov) (by nov) trivial
    split
    · split
      · exact b.retv o1 (by simp) (by nov) (by nov) trivial
      · rename_i n hq
        have hn : n.owner ≠ i := b.own (L := .wgQ w) n (by show n ∈ (setWg s w (s.wg w - 1)).lists (.wgQ w); rw [hq]; simp)
        exact b.retvR ((o1.ntr n1).ntr (.note (by simpa [Ev.about] using hn))) (by simp) (by nov) (by nov) trivial
      · exact b.yld ((o1.ntr n1).ntr (.schedAll (b.own (L := .wgQ w)))) (by simp) (by nov) (by nov) trivial
    · exact b.retv o1 (by simp) (by nov) (by nov) trivial
  | wgWait w dl =>
    subst hc
    simp only [doCall, wgWait]; split
    · rename_i h; exact b.code h rfl (fun v hv => by simp [CallOk, hv])
    split
    · exact b.yld (Out.refl.dlClear.note (by simp [Ev.about])) (by simp [isCallOf]) (by nov) (by nov) (by simp [CallOk])
    · refine b.pause (b.push Out.refl.dlClear rfl (by simp [dlClear_co]) (.wgQ w)).eqs (by simp) (by simp) ?_ ?_
      · intro _ _ h hn; exact hn (h.mpr (by simp))
      · intro _ h2 h3; unfold Own; rw [h2]; exact .inl (h3.mpr (by simp))
  | cvSignal v =>
    subst hc
    simp only [doCall, cvSignal]; split
    · exact plain _ (by nov) (by nov) trivial
    · rename_i n q hq
      have hq1 : ∀ x ∈ n :: q, x.owner ≠ i := fun x hx => b.own (L := .cvQ v) x (by rw [hq]; exact hx)
      have n1 : Ntr i s (setList s (.cvQ v) q) := .setList (fun h => b.own (L := .cvQ v) _ h rfl) (fun h => hq1 _ (List.mem_cons_of_mem _ h) rfl)
      exact b.retvR ((Out.refl.ntr n1).ntr (.note (by simpa [Ev.about] using hq1 n List.mem_cons_self))) (by simp) (by nov) (by nov) trivial
  | cvBcast v =>
    subst hc
    have n1 : Ntr i s (setList s (.cvQ v) []) := .setList (fun h => b.own (L := .cvQ v) _ h rfl) (by simp)
    exact b.yld ((Out.refl.ntr n1).ntr (.schedAll (b.own (L := .cvQ v)))) (by simp) (by nov) (by nov) trivial
  | cvWait v m dl =>
    subst hc
    have o1 : Out i s (note s (.release m i)) [.release m i] := Out.refl.note (by simp [Ev.about])
    have hn : Ntr i (note s (.release m i)) (fastUnlock (note s (.release m i)) m) := .fastUnlock (m := m) (b.own (L := .muQ m))
    have o2 := o1.ntr hn
    have hco : (fastUnlock (note s (.release m i)) m).co i = s.co i := hn.co
    have hsco : (fastUnlock (note s (.release m i)) m).sco = s.sco := hn.sco
    simp only [doCall, cvWait]; split
    · rename_i h; exact b.uncan h (by simp [CallOk, OK, CANCELED])
    generalize fastUnlock (note s (.release m i)) m = t at *
    split
    · unfold yfsr
      generalize (if t.nresumers > 0 then 1 else 0) + 0 = n
      have o4 : Out i s (setPc t i (.yck n .condEnq)) [.release m i] := o2.upd (f := fun k => { k with pc := .yck n .condEnq }) (fun k => by simp)
      have o5 : Out i s (coyield t i n .condEnq) [.release m i] := o4.eqs
      obtain ⟨h1, h2⟩ := b.base o5 (by simp [isCallOf])
      exact h1.cond (q := v) (m := m) (dl := dl) (by simp [coyield_co, condPc]) (by rw [o5.ca, b.ca]) (by rw [h2]; simp)
    · unfold cvEnq
      refine b.pause (b.push o2 hsco (by rw [hco]) (.cvQ v)).eqs (by simp) (by simp [isCallOf]) ?_ ?_
      · intro _ _ h hn; exact hn (h.mpr (by simp))
      · intro h1 h2 h3; unfold Own; rw [h2, h1]; exact ⟨by simp, .inl (h3.mpr (by simp))⟩
  | cancel id dl =>
    subst hc
    exact (b.base (Out.refl.upd (f := fun k => { k with pc := .cancelTry }) (fun k => by simp)) (by simp)).1.plain (by simp [upd_co, plainPc])
  | setType a => subst hc; exact b.retv (Out.refl.upd (fun k => by simp)) (by simp) (by nov) (by nov) trivial
  | setState e => subst hc; exact b.retv (Out.refl.upd (fun k => by simp)) (by simp) (by nov) (by nov) trivial
  | cpush x => subst hc; exact b.retv (Out.refl.upd (fun k => by simp)) (by simp) (by nov) (by nov) trivial
  | cpop e =>
    subst hc
    simp only [doCall, doCpop]; split
    · exact b.fault
    · rename_i h q _
      have o1 : Out i s (upd s i (fun k => { k with cleanup := q })) [] := Out.refl.upd (fun k => by simp)
      split
      · exact b.retv (o1.note (by simp [Ev.about])) (by simp [isCallOf]) (by nov) (by nov) trivial
      · exact b.retv o1 (by simp) (by nov) (by nov) trivial
  | sigWatch n =>
    subst hc
    simp only [doCall, doSigWatch]; split
    · exact plain _ (by nov) (by nov) trivial
    split
    · exact plain _ (by nov) (by nov) trivial
    · have o1 : Out i s (upd s i (fun k => { k with sigwatch := k.sigwatch ||| (1 <<< n) })) [] := Out.refl.upd (fun k => by simp)
      exact b.retv o1.eqs (by simp) (by nov) (by nov) trivial
  | sigUnwatch n =>
    subst hc
    simp only [doCall, doSigUnwatch]; split
    · exact plain _ (by nov) (by nov) trivial
    split
    · have o1 : Out i s (upd s i (fun k => { k with sigwatch := k.sigwatch ^^^ (1 <<< n) })) [] := Out.refl.upd (fun k => by simp)
      exact b.retv o1.eqs (by simp) (by nov) (by nov) trivial
    · exact plain _ (by nov) (by nov) trivial
  | sigWait dl =>
    subst hc
    simp only [doCall, doSigWait]; split
    · exact plain _ (by nov) (by nov) (by cok)
    split
    · rename_i h; exact b.uncan h (by cok)
    · have o1 : Out i s (upd s i (fun k => { k with sigmask := k.sigwatch })) [] := Out.refl.upd (fun k => by simp)
      refine b.pause (b.push o1 rfl (by simp [upd_co]) .sigQ).eqs (by simp) (by simp) ?_ ?_
      · intro h _ _ hr; simp only [reason] at hr; rw [h] at hr; simp at hr
      · intro h1 h2 h3; unfold Own; rw [h2]; dsimp only; rw [h1]; exact ⟨h3.mpr (by simp), by simp⟩
  | wait fd w dl =>
    subst hc
    simp only [doCall, doWait]
    refine b.pause (b.free .refl rfl rfl).eqs (by simp) (by simp) ?_ ?_
    · intro h _ _; simp only [reason, h]; simp
    · intro _ h2 _; unfold Own; rw [h2]; trivial
  | work =>
    subst hc
    have o1 : Out i s { s with niowaiters := s.niowaiters + 1 } [] := Out.refl.eqs
    have o2 := o1.upd (f := fun k => { k with pc := .workTry }) (fun k => by simp)
    have h := (b.base o2 (by simp)).1
    have hp : ((doCall s i .work).co i).pc = .workTry := by simp [doCall, setPc_co]
    refine ⟨h.dd, h.cc, h.st, ?_, ?_, ?_, ?_, ?_, ?_⟩
    · intro _
      exact ⟨by simpa [doCall, setPc_co] using b.ca, fun hm => b.fr _ _ hm rfl, b.jb, fun hm => b.fr _ _ hm rfl⟩
    · rw [hp]; simp
    · rw [hp]; simp [retPc]
    · rw [hp]; simp
    · rw [hp]; simp [condPc]
    · rw [hp]; simp

end
end Neco.Rt
