import Verif.Proof.RtEvid7
/-!
# What the running coroutine does to its own place in the lists of the scheduler
-/
namespace Neco.Rt
open Neco.Err

/-- what a change by `i` itself does: no expired deadline appears, it does not enter a list of the scheduler -/
structure Slim (i : Nat) (s t : S) : Prop where
  dd : (t.co i).deadlined = true → (s.co i).deadlined = true
  mem : ∀ L, L = .resumers ∨ L = .iolist → .co i ∈ t.lists L → .co i ∈ s.lists L
  jb : t.jobs = s.jobs

theorem Slim.refl {i : Nat} {s : S} : Slim i s s := ⟨fun h => h, fun _ _ h => h, rfl⟩
theorem Slim.trans {i : Nat} {s t u : S} (h : Slim i s t) (g : Slim i t u) : Slim i s u :=
  ⟨fun x => h.dd (g.dd x), fun L hL x => h.mem L hL (g.mem L hL x), g.jb.trans h.jb⟩
theorem Out.slim {i : Nat} {s t : S} {es : List Ev} (o : Out i s t es) : Slim i s t := ⟨o.dd, fun L _ => o.mem L, o.jb⟩
theorem Ntr.slim {i : Nat} {s t : S} (n : Ntr i s t) : Slim i s t := (Out.refl.ntr n).slim
theorem Slim.ntr {i : Nat} {s t u : S} (h : Slim i s t) (n : Ntr i t u) : Slim i s u := h.trans n.slim
theorem Slim.eqs {i : Nat} {s t u : S} (h : Slim i s t) (co : u.co i = t.co i := by rfl) (li : u.lists = t.lists := by rfl) (jb : u.jobs = t.jobs := by rfl) : Slim i s u :=
  h.trans ⟨by rw [co]; exact fun h => h, fun L _ => by rw [li]; exact fun h => h, jb⟩
theorem Slim.upd {i : Nat} {s t : S} (h : Slim i s t) {f : Co → Co} (hf : ∀ k, (f k).deadlined = true → k.deadlined = true) : Slim i s (upd t i f) :=
  h.trans ⟨by rw [show (Rt.upd t i f).co i = f (t.co i) by simp [upd_co]]; exact hf _, fun _ _ h => h, rfl⟩
theorem Slim.note {i : Nat} {s t : S} (h : Slim i s t) {e : Ev} : Slim i s (note t e) := h.eqs
theorem Slim.pc {i : Nat} {s t : S} (h : Slim i s t) {p : Pc} : Slim i s (setPc t i p) := h.upd (f := fun k => { k with pc := p }) (fun _ h => h)
theorem Slim.ret {i : Nat} {s t : S} (h : Slim i s t) {v : Int} : Slim i s (retv t i v) := h.pc
theorem Slim.cl {i : Nat} {s t : S} (h : Slim i s t) : Slim i s (dlClear t i) := h.upd (fun k => by simp)
theorem Slim.yld {i : Nat} {s t : S} (h : Slim i s t) {n : Nat} {a : Aft} : Slim i s (coyield t i n a) := by
  have h1 : Slim i s (setPc t i (.yck n a)) := h.pc
  exact h1.eqs
theorem Slim.yfsr {i : Nat} {s t : S} (h : Slim i s t) {n : Nat} {a : Aft} : Slim i s (yfsr t i n a) := h.yld
theorem Slim.res {i : Nat} {s t : S} (h : Slim i s t) {r : Nat} : Slim i s (scoResume t r) := h.eqs
theorem Slim.resO {i : Nat} {s t : S} (h : Slim i s t) {r : Option Nat} : Slim i s (resumeOpt t r) := by
  cases r
  · exact h
  · exact h.res
theorem Slim.fault {i : Nat} {s t : S} (h : Slim i s t) : Slim i s { t with fault := true } := h.eqs
theorem Slim.rm {i : Nat} {s t : S} (h : Slim i s t) {n : Node} : Slim i s (rm t n) :=
  h.trans ⟨fun h => h, fun _ _ h => (List.mem_filter.mp h).1, rfl⟩
theorem Slim.selRm {i j : Nat} {s t : S} (h : Slim i s t) : Slim i s (selRm t j) := h.trans (Out.refl.selRm).slim
theorem Slim.push {i : Nat} {s t : S} (h : Slim i s t) {L : LName} (h1 : L ≠ .resumers) (h2 : L ≠ .iolist) {n : Node} : Slim i s (push t L n) := by
  refine h.trans ⟨fun h => h, fun K hK hm => ?_, rfl⟩
  rw [mem_push] at hm
  rcases hm with ⟨hm, _⟩ | ⟨hk, _⟩
  · exact hm
  · subst hk
    rcases hK with h | h
    · exact absurd h h1
    · exact absurd h h2
theorem Slim.pause {i : Nat} {s t : S} (h : Slim i s t) {dl : Int} {b : Blk} : Slim i s (copause t i dl b) := by
  unfold copause; split
  · exact h.pc
  · dsimp only
    have h1 : Slim i s (Rt.upd t i (fun c => { c with pc := .blk b, deadline := dl, paused := true })) := h.upd (fun _ h => h)
    exact h1.eqs

section
variable {i : Nat} {s : S} (fr : ∀ L n, L ≠ LName.resumers → L ≠ LName.iolist → n ∈ s.lists L → n.owner ≠ i)
include fr

theorem chanSend_slim (k : Nat) (m : Msg) (dl : Int) : Slim i s (chanSend s i k m dl) := by
  have fq : ∀ n ∈ s.lists (.chanQ k), n.owner ≠ i := fun n => fr _ n (by simp) (by simp)
  unfold chanSend; split
  · exact Slim.refl.fault
  split
  · exact Slim.refl.ret
  split
  · exact (Slim.refl.upd (by simp)).ret
  rename_i ch _ _ _
  have hn : Ntr i (note s (.put k i m)) (sendTry (note s (.put k i m)) k m ch).1 := .sendTry fq
  have h2 : Slim i s (sendTry (note s (.put k i m)) k m ch).1 := Slim.refl.note.ntr hn
  dsimp only
  generalize (sendTry (note s (.put k i m)) k m ch).1 = t at *
  split
  · exact h2.ret.res
  · unfold sendRest; split
    · exact Slim.ret h2.eqs
    · have q1 : Slim i s (push t (.chanQ k) (.co i)) := h2.push (by simp) (by simp)
      have q2 : Slim i s (setChan (push t (.chanQ k) (.co i)) k { ch with qrecv := false }) := q1.eqs
      exact Slim.pause (q2.upd (f := fun k => { k with smsg := m }) (fun _ h => h)).eqs

theorem finishLock_slim {t : S} (h : Slim i s t) (m : Nat) (rd : Bool) (dl : Int) (b : Blk) : Slim i s (finishLock t i m rd dl b) := by
  unfold finishLock; dsimp only
  exact Slim.pause (Slim.push (L := .muQ m) (h.upd (f := fun k => { k with rlocked := rd }) (fun _ h => h)) (by simp) (by simp)).eqs

theorem chanClose1_slim (k : Nat) (ch : Chan) (a : Aft) : Slim i s (chanClose1 s i k ch a) := 
  (chanClose1_out' Out.refl k ch a (fun n => fr _ n (by simp) (by simp))).slim

omit fr in
theorem recvNow_slim {k : Nat} {ch : Chan} {m : Msg} {o : Option Nat} {t : S} (e : recvNow s k i ch = some (m, o, t)) : Slim i s t := by
  have hs : ∀ q, Slim i s (setList s (.chanQ k) q) := fun q =>
    ⟨fun h => h, fun L hL hm => by rcases hL with rfl | rfl <;> simpa [setList] using hm, rfl⟩
  unfold recvNow at e
  split at e
  · split at e <;> cases e
    · exact Slim.refl.eqs
    · exact (hs _).eqs
    · exact Slim.refl.eqs
  · split at e
    · cases e
    · split at e
      · cases e
      · split at e <;> cases e
        · exact (hs _).eqs
        · exact Slim.refl.eqs

omit fr in
theorem chanRecv_slim (k : Nat) (tr : Bool) (dl : Int) : Slim i s (chanRecv s i k tr dl) := by
  unfold chanRecv; split
  · exact Slim.refl.fault
  rename_i ch hch
  split
  · exact Slim.refl.ret
  split
  · exact (Slim.refl.upd (by simp)).ret
  split
  · rename_i m snd t he
    exact ((recvNow_slim he).upd (f := fun k => { k with rdat := m }) (fun _ h => h)).ret.resO
  · split
    · exact Slim.refl.ret
    · dsimp only
      have q1 : Slim i s (push s (.chanQ k) (.co i)) := Slim.refl.push (by simp) (by simp)
      have q2 : Slim i s (setChan (push s (.chanQ k) (.co i)) k { ch with qrecv := true }) := q1.eqs
      exact Slim.pause (q2.upd (f := fun k => { k with cclosed := false }) (fun _ h => h)).eqs

omit fr in
theorem chanSelect_slim (cs : List Nat) (tr : Bool) (dl : Int) : Slim i s (chanSelect s i cs dl tr) := by
  unfold chanSelect; split
  · exact Slim.refl.fault
  split
  · exact (Slim.refl.upd (by simp)).ret
  split
  · split
    · exact Slim.refl.fault
    split
    · exact Slim.refl.pc
    split
    · rename_i m snd t he
      dsimp only
      exact Slim.resO (Slim.pc (Slim.eqs (recvNow_slim he)))
    · exact Slim.refl.fault
  · split
    · exact Slim.refl.ret
    · dsimp only
      have o1 : Slim i s (upd s i (fun k => { k with retIdx := -1 })) := Slim.refl.upd (fun _ h => h)
      have o2 : Slim i s (selPush (upd s i (fun k => { k with retIdx := -1 })) i 0 cs) :=
        o1.trans ⟨by simp, fun L _ h => by rwa [selPush_comem] at h, by simp⟩
      exact Slim.pause o2.eqs

theorem doCall_slim (hw : i ≤ s.sco.nextId) (c : Call) : Slim i s (doCall s i c) := by
  have hst : ∀ (t : S) g, t.co = s.co → t.lists = s.lists → t.jobs = s.jobs → t.sco = s.sco → Slim i s (doStart t i g) := by
    intro t g h1 h2 h3 h4
    have hne : i ≠ t.sco.nextId + 1 := by rw [h4]; omega
    refine ⟨?_, ?_, ?_⟩
    · simp [doStart, hne, upd_co, h1]
    · intro L _ h; simpa [doStart, h2] using h
    · simp [doStart, h3]
  have fo : ∀ L, L ≠ LName.resumers → L ≠ LName.iolist → ∀ n ∈ s.lists L, n.owner ≠ i := fun L h1 h2 n => fr L n h1 h2
  cases c with
  | none => exact .refl
  | start => exact hst s _ rfl rfl rfl rfl
  | genStart => exact hst { s with nchan := s.nchan + 1, chan := fun k => if k = s.nchan then some { rc := 1 } else s.chan k } _ rfl rfl rfl rfl
  | yield => exact Slim.refl.yld
  | sleep dl =>
    simp only [doCall, doSleep]; split
    · exact Slim.refl.ret
    · exact Slim.pause Slim.refl.eqs
  | join id dl =>
    simp only [doCall, doJoin]; split
    · exact Slim.refl.note.ret
    split
    · exact Slim.refl.cl.ret
    split
    · exact Slim.refl.cl.ret
    · exact Slim.pause (Slim.push (L := .joinQ id) Slim.refl.cl (by simp) (by simp))
  | suspend dl =>
    simp only [doCall, doSuspend]
    exact Slim.pause (Slim.upd (f := fun k => { k with suspended := true }) Slim.refl (fun _ h => h)).eqs
  | resume id =>
    simp only [doCall, doResume]; split
    · exact Slim.refl.ret
    split
    · exact Slim.refl.ret
    · exact Slim.refl.note.ret.res
  | exit => exact Slim.refl.pc
  | getid => exact Slim.refl.ret
  | lastid => exact Slim.refl.ret
  | starterid => exact Slim.refl.ret
  | stats => exact Slim.refl.note.ret
  | chMake cap => exact Slim.ret Slim.refl.eqs
  | chRetain k =>
    simp only [doCall]; split
    · exact Slim.refl.fault
    · exact Slim.ret Slim.refl.eqs
  | chRelease k =>
    simp only [doCall]
    exact Slim.ret (Slim.refl.eqs (by simp) (by simp) (by simp))
  | send k m dl => exact chanSend_slim fr k m dl
  | bcast k m =>
    simp only [doCall, chanBcast]; split
    · exact Slim.refl.fault
    split
    · exact Slim.refl.ret
    · exact (Slim.refl.ntr (.bcastTry (fo _ (by simp) (by simp)))).yld
  | recv k dl => exact chanRecv_slim k false dl
  | tryrecv k => exact chanRecv_slim k true MAX
  | close k =>
    simp only [doCall, chanClose]; split
    · exact Slim.refl.fault
    split
    · exact Slim.refl.ret
    · exact chanClose1_slim fr _ _ _
  | select cs dl => exact chanSelect_slim cs false dl
  | tryselect cs => exact chanSelect_slim cs true MAX
  | chCase k =>
    simp only [doCall, chanCase]; split
    · exact Slim.refl.fault
    split
    · exact Slim.ret (Slim.upd Slim.refl (by simp))
    · exact Slim.refl.ret
  | genYield m dl =>
    simp only [doCall, doGenYield]; split
    · exact Slim.refl.ret
    · exact chanSend_slim fr _ m dl
  | lock m dl =>
    simp only [doCall, muLock]; split
    · exact Slim.refl.cl.ret
    split
    · exact finishLock_slim fr Slim.refl.cl _ _ _ _
    · exact Slim.ret (Slim.note (Slim.refl.cl.eqs))
  | rdlock m dl =>
    simp only [doCall, muRdlock]; split
    · exact Slim.refl.cl.ret
    split
    · exact finishLock_slim fr Slim.refl.cl _ _ _ _
    · exact Slim.ret (Slim.note (Slim.refl.cl.eqs))
  | trylock m =>
    simp only [doCall, muTrylock]; split
    · exact Slim.refl.ret
    · exact Slim.ret (Slim.note Slim.refl.eqs)
  | tryrdlock m =>
    simp only [doCall, muTryrdlock]; split
    · exact Slim.refl.ret
    · exact Slim.ret (Slim.note Slim.refl.eqs)
  | unlock m =>
    have o2 : Slim i s (fastUnlock (note s (.release m i)) m) := Slim.refl.note.ntr (.fastUnlock (m := m) (fo (.muQ m) (by simp) (by simp)))
    simp only [doCall, muUnlock]; split
    · exact o2.yfsr
    · exact o2.yld
  | wgAdd w d =>
    simp only [doCall, wgAdd]; split
    · exact Slim.refl.fault
    split
    · exact Slim.refl.ret
    · exact Slim.ret Slim.refl.eqs
  | wgDone w =>
    have fq := fo (.wgQ w) (by simp) (by simp)
    have o1 : Slim i s (setWg s w (s.wg w - 1)) := Slim.refl.eqs
    have n1 : Ntr i (setWg s w (s.wg w - 1)) (setList (setWg s w (s.wg w - 1)) (.wgQ w) []) := .setList (fun h => fq _ h rfl) (by simp)
    simp only [doCall, wgDone]; split
    · exact Slim.refl.ret
    split
    · split
      · exact o1.ret
      · exact (o1.ntr n1).note.ret.res
      · exact ((o1.ntr n1).ntr (.schedAll fq)).yfsr
    · exact o1.ret
  | wgWait w dl =>
    simp only [doCall, wgWait]; split
    · exact Slim.refl.cl.ret
    split
    · exact Slim.refl.cl.note.yld
    · exact Slim.pause (Slim.push (L := .wgQ w) Slim.refl.cl (by simp) (by simp)).eqs
  | cvSignal v =>
    have fq := fo (.cvQ v) (by simp) (by simp)
    simp only [doCall, cvSignal]; split
    · exact Slim.refl.ret
    · rename_i n q hq
      have n1 : Ntr i s (setList s (.cvQ v) q) := .setList (fun h => fq _ h rfl) (fun h => fq (.co i) (by rw [hq]; exact List.mem_cons_of_mem _ h) rfl)
      exact (Slim.refl.ntr n1).note.ret.res
  | cvBcast v =>
    have fq := fo (.cvQ v) (by simp) (by simp)
    have n1 : Ntr i s (setList s (.cvQ v) []) := .setList (fun h => fq _ h rfl) (by simp)
    exact ((Slim.refl.ntr n1).ntr (.schedAll fq)).yfsr
  | cvWait v m dl =>
    have o2 : Slim i s (fastUnlock (note s (.release m i)) m) := Slim.refl.note.ntr (.fastUnlock (m := m) (fo (.muQ m) (by simp) (by simp)))
    simp only [doCall, cvWait]; split
    · exact (Slim.refl.upd (by simp)).ret
    generalize fastUnlock (note s (.release m i)) m = t at *
    split
    · exact o2.yfsr
    · unfold cvEnq
      exact Slim.pause (Slim.push (L := .cvQ v) o2 (by simp) (by simp)).eqs
  | cancel id dl => exact Slim.refl.pc
  | setType a => exact Slim.ret (Slim.upd Slim.refl (by simp))
  | setState e => exact Slim.ret (Slim.upd Slim.refl (by simp))
  | cpush x => exact Slim.ret (Slim.upd Slim.refl (by simp))
  | cpop e =>
    simp only [doCall, doCpop]; split
    · exact Slim.refl.fault
    · split
      · exact Slim.ret (Slim.note (Slim.upd Slim.refl (by simp)))
      · exact Slim.ret (Slim.upd Slim.refl (by simp))
  | sigWatch n =>
    simp only [doCall, doSigWatch]; split
    · exact Slim.refl.ret
    split
    · exact Slim.refl.ret
    · exact Slim.ret (Slim.upd (f := fun k => { k with sigwatch := k.sigwatch ||| (1 <<< n) }) Slim.refl (fun _ h => h)).eqs
  | sigUnwatch n =>
    simp only [doCall, doSigUnwatch]; split
    · exact Slim.refl.ret
    split
    · exact Slim.ret (Slim.upd (f := fun k => { k with sigwatch := k.sigwatch ^^^ (1 <<< n) }) Slim.refl (fun _ h => h)).eqs
    · exact Slim.refl.ret
  | sigWait dl =>
    simp only [doCall, doSigWait]; split
    · exact Slim.refl.ret
    split
    · exact (Slim.refl.upd (by simp)).ret
    · exact Slim.pause (Slim.push (L := .sigQ) (Slim.upd (f := fun k => { k with sigmask := k.sigwatch }) Slim.refl (fun _ h => h)) (by simp) (by simp)).eqs
  | wait fd w dl =>
    simp only [doCall, doWait]
    exact Slim.pause Slim.refl.eqs
  | work =>
    exact Slim.pc (t := { s with niowaiters := s.niowaiters + 1 }) Slim.refl.eqs

end
end Neco.Rt
