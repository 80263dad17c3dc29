import Verif.Proof.RtList
/-!
# Every step keeps the queues consistent
-/
namespace Neco.Rt
open Neco.Err

/-! ### loops -/
theorem sendLoop_sub (s : S) (c : Nat) (m : Msg) (q : List Node) (K : LName) :
    ((sendLoop s c m q).1.lists K).Sublist ((setList s (.chanQ c) q).lists K) := by
  induction q with
  | nil => simp [sendLoop]
  | cons n q ih =>
    cases n with
    | co r =>
      simp only [sendLoop, note_lists, upd_lists, setList_lists]; split
      · exact List.sublist_cons_self _ _
      · exact List.Sublist.refl _
    | case r idx =>
      simp only [sendLoop]; split
      · refine ih.trans ?_
        simp only [setList_lists]; split
        · exact List.sublist_cons_self _ _
        · exact List.Sublist.refl _
      · simp only [note_lists, upd_lists, setList_lists]; split
        · exact List.sublist_cons_self _ _
        · exact List.Sublist.refl _

theorem sendLoop_view (s : S) (c : Nat) (m : Msg) (q : List Node) (j : Nat) :
    view ((sendLoop s c m q).1.co j) = view (s.co j) := by
  induction q with
  | nil => simp [sendLoop]
  | cons n q ih =>
    cases n with
    | co r => simp only [sendLoop, note_co, upd_co, setList_co]; split <;> simp_all [view]
    | case r idx =>
      simp only [sendLoop]; split
      · exact ih
      · simp only [note_co, upd_co, setList_co]; split <;> simp_all [view]

theorem sendTry_sub (s : S) (c : Nat) (m : Msg) (ch : Chan) (K : LName) :
    ((sendTry s c m ch).1.lists K).Sublist (s.lists K) := by
  unfold sendTry; split
  · refine (sendLoop_sub _ _ _ _ _).trans ?_
    rw [setList_lists]; split
    · subst_vars; exact List.Sublist.refl _
    · exact List.Sublist.refl _
  · exact List.Sublist.refl _

theorem sendTry_view (s : S) (c : Nat) (m : Msg) (ch : Chan) (j : Nat) :
    view ((sendTry s c m ch).1.co j) = view (s.co j) := by
  unfold sendTry; split
  · exact sendLoop_view ..
  · rfl

theorem InvL.sendTry {s : S} (h : InvL s) (c : Nat) (m : Msg) (ch : Chan) : InvL (sendTry s c m ch).1 :=
  h.mono (sendTry_sub s c m ch) (fun j => .inl (sendTry_view ..)) (by simp) (fun i a => by simpa using a)

theorem Free.sched {s : S} {i : Nat} (h : Free s i) (r : Nat) : Free (schedResume s r) i := by
  intro L n hn ho
  have hn : n ∈ (push s .resumers (.co r)).lists L := hn
  rw [mem_push] at hn
  rcases hn with ⟨hn, _⟩ | ⟨rfl, _⟩
  · exact h L n hn ho
  · exact .inl rfl

theorem Free.note {s : S} {i : Nat} (h : Free s i) (e : Ev) : Free (note s e) i := h
theorem Free.upd {s : S} {i : Nat} (h : Free s i) (j : Nat) (f : Co → Co) : Free (upd s j f) i := h
theorem Free.setChan {s : S} {i : Nat} (h : Free s i) (c : Nat) (ch : Chan) : Free (setChan s c ch) i := h
theorem Free.setList {s : S} {i : Nat} (h : Free s i) {L : LName} {l : List Node} (hl : l.Sublist (s.lists L)) :
    Free (setList s L l) i := h.congr (setList_sub hl)
theorem Free.rm {s : S} {i : Nat} (h : Free s i) (n : Node) : Free (rm s n) i := h.congr (rm_sub s n)

theorem InvL.schedAll {s : S} (h : InvL s) (L : LName) (q : List Node) (ho : ∀ n ∈ q, n.owner ≤ s.sco.nextId) : InvL (schedAll s L q) := by
  induction q generalizing s with
  | nil => exact h
  | cons n q ih =>
    simp only [Rt.schedAll]
    refine ih ?_ (fun n hn => ho n (by simp [hn]))
    exact (h.sched (ho n (by simp))).congr rfl (fun _ => rfl) (Nat.le_refl _) rfl

theorem Free.schedAll {s : S} {i : Nat} (h : Free s i) (L : LName) (q : List Node) : Free (schedAll s L q) i := by
  induction q generalizing s with
  | nil => exact h
  | cons n q ih => simp only [Rt.schedAll]; exact ih ((h.sched _).note _)

/-- emptying the queue commutes with scheduling -/
theorem setList_sched_lists (s t : S) (c : Nat) (l : List Node) (r : Nat) (h : t.lists = (setList s (.chanQ c) l).lists) :
    (setList (schedResume t r) (.chanQ c) []).lists = (schedResume (setList s (.chanQ c) []) r).lists := by
  funext K
  have e : ∀ K, (schedResume t r).lists K = (push t .resumers (.co r)).lists K := fun _ => rfl
  have e2 : (schedResume (setList s (.chanQ c) []) r).lists K = (push (setList s (.chanQ c) []) .resumers (.co r)).lists K := rfl
  rw [e2, setList_lists]
  by_cases hk : K = .chanQ c
  · subst hk; rw [if_pos rfl]; simp [push, setList, rm]
  · rw [if_neg hk, e]
    simp only [push, setList_lists, rm, h]
    by_cases hr : K = .resumers
    · subst hr; simp
    · simp [hr, hk]

theorem InvL.bcastLoop {s : S} (c : Nat) (m : Msg) (q : List Node) (h : InvL (Rt.setList s (.chanQ c) []))
    (ho : ∀ n ∈ q, n.owner ≤ s.sco.nextId) : InvL (bcastLoop s c m q).1 := by
  induction q generalizing s with
  | nil => simpa [Rt.bcastLoop] using h
  | cons n q ih =>
    have hstep : ∀ (t : S) (r : Nat), t.lists = (Rt.setList s (.chanQ c) q).lists → (∀ j, view (t.co j) = view (s.co j)) →
        t.sco = s.sco → t.jobs = s.jobs → r ≤ s.sco.nextId → InvL (Rt.bcastLoop (schedResume t r) c m q).1 := by
      intro t r h1 h2 h3 h4 h5
      refine ih ?_ (fun n hn => by rw [schedResume_sco, h3]; exact ho n (by simp [hn]))
      have h6 := h.sched (i := r) (by simpa using h5)
      exact h6.congr (setList_sched_lists s t c q r h1) (fun j => by simpa using h2 j) (by simp [h3]) (by simp [h4])
    cases n with
    | co r =>
      simp only [Rt.bcastLoop]
      refine hstep _ r rfl ?_ rfl rfl (ho (.co r) (by simp))
      intro j; simp only [note_co, upd_co, setList_co]; split <;> simp_all [view]
    | case r idx =>
      simp only [Rt.bcastLoop]; split
      · exact ih h (fun n hn => ho n (by simp [hn]))
      · refine hstep _ r rfl ?_ rfl rfl (ho (.case r idx) (by simp))
        intro j; simp only [note_co, upd_co, setList_co]; split <;> simp_all [view]

theorem InvL.closeLoop {s : S} (c : Nat) (q : List Node) (h : InvL (Rt.setList s (.chanQ c) []))
    (ho : ∀ n ∈ q, n.owner ≤ s.sco.nextId) : InvL (closeLoop s c q) := by
  induction q generalizing s with
  | nil => simpa [Rt.closeLoop] using h
  | cons n q ih =>
    have hstep : ∀ (t : S) (r : Nat), t.lists = (Rt.setList s (.chanQ c) q).lists → (∀ j, view (t.co j) = view (s.co j)) →
        t.sco = s.sco → t.jobs = s.jobs → r ≤ s.sco.nextId → InvL (Rt.closeLoop (schedResume t r) c q) := by
      intro t r h1 h2 h3 h4 h5
      refine ih ?_ (fun n hn => by rw [schedResume_sco, h3]; exact ho n (by simp [hn]))
      have h6 := h.sched (i := r) (by simpa using h5)
      exact h6.congr (setList_sched_lists s t c q r h1) (fun j => by simpa using h2 j) (by simp [h3]) (by simp [h4])
    cases n with
    | co r =>
      simp only [Rt.closeLoop]
      refine hstep _ r rfl ?_ rfl rfl (ho (.co r) (by simp))
      intro j; simp only [upd_co, setList_co]; split <;> simp_all [view]
    | case r idx =>
      simp only [Rt.closeLoop]; split
      · exact ih h (fun n hn => ho n (by simp [hn]))
      · refine hstep _ r rfl ?_ rfl rfl (ho (.case r idx) (by simp))
        intro j; simp only [upd_co, setList_co]; split <;> simp_all [view]

theorem Free.bcastLoop {s : S} {i : Nat} (c : Nat) (m : Msg) (q : List Node) (h : Free (Rt.setList s (.chanQ c) []) i) : Free (bcastLoop s c m q).1 i := by
  induction q generalizing s with
  | nil => simpa [Rt.bcastLoop] using h
  | cons n q ih =>
    have hstep : ∀ (t : S) (r : Nat), t.lists = (Rt.setList s (.chanQ c) q).lists → Free (Rt.bcastLoop (schedResume t r) c m q).1 i := by
      intro t r h1
      refine ih ?_
      have h6 := h.sched r
      exact h6.congr (fun L => by rw [setList_sched_lists s t c q r h1]; exact List.Sublist.refl _)
    cases n with
    | co r => simp only [Rt.bcastLoop]; exact hstep _ r rfl
    | case r idx =>
      simp only [Rt.bcastLoop]; split
      · exact ih h
      · exact hstep _ r rfl

theorem Free.closeLoop {s : S} {i : Nat} (c : Nat) (q : List Node) (h : Free (Rt.setList s (.chanQ c) []) i) : Free (closeLoop s c q) i := by
  induction q generalizing s with
  | nil => simpa [Rt.closeLoop] using h
  | cons n q ih =>
    have hstep : ∀ (t : S) (r : Nat), t.lists = (Rt.setList s (.chanQ c) q).lists → Free (Rt.closeLoop (schedResume t r) c q) i := by
      intro t r h1
      refine ih ?_
      have h6 := h.sched r
      exact h6.congr (fun L => by rw [setList_sched_lists s t c q r h1]; exact List.Sublist.refl _)
    cases n with
    | co r => simp only [Rt.closeLoop]; exact hstep _ r rfl
    | case r idx =>
      simp only [Rt.closeLoop]; split
      · exact ih h
      · exact hstep _ r rfl

theorem nil_sub (s : S) (L : LName) : ([] : List Node).Sublist (s.lists L) := List.nil_sublist _

theorem InvL.bcastTry {s : S} (h : InvL s) (c : Nat) (m : Msg) (ch : Chan) : InvL (bcastTry s c m ch).1 := by
  unfold Rt.bcastTry; split
  · exact InvL.bcastLoop c m _ (h.setList (nil_sub s _)) (fun n hn => h.ow _ n hn)
  · exact h

theorem Free.bcastTry {s : S} {i : Nat} (h : Free s i) (c : Nat) (m : Msg) (ch : Chan) : Free (bcastTry s c m ch).1 i := by
  unfold Rt.bcastTry; split
  · exact Free.bcastLoop c m _ (h.setList (nil_sub s _))
  · exact h

/-- the queue of a mutex contains only coroutines -/
theorem InvL.muQ_co {s : S} (h : InvL s) {m : Nat} {n : Node} (hn : n ∈ s.lists (.muQ m)) : n = .co n.owner := by
  have := h.pl _ _ hn
  cases n with
  | co i => rfl
  | case i idx => exact this.elim

theorem sched_pop_lists {s : S} (h : InvL s) {L : LName} {n : Node} {q : List Node} (hq : s.lists L = n :: q)
    (hn : n = .co n.owner) (hL : L ≠ .resumers) : (schedResume (setList s L q) n.owner).lists L = q := by
  have e : (schedResume (setList s L q) n.owner).lists L = (push (setList s L q) .resumers (.co n.owner)).lists L := rfl
  rw [e]
  simp only [push, setList_lists, rm, if_neg hL, if_true]
  have hd := h.nd L
  rw [hq, List.nodup_cons] at hd
  rw [List.filter_eq_self]
  intro a ha
  rw [← hn]
  simp only [decide_eq_true_eq]
  rintro rfl
  exact hd.1 ha

theorem InvL.handoff {s : S} (h : InvL s) (m : Nat) (q : List Node) (hq : s.lists (.muQ m) = q) :
    InvL (handoff s m q) ∧ ∀ i, Free s i → Free (handoff s m q) i := by
  induction q generalizing s with
  | nil => exact ⟨h, fun i a => a⟩
  | cons n q ih =>
    have hmem : n ∈ s.lists (.muQ m) := by rw [hq]; simp
    have hco := h.muQ_co hmem
    have hs : q.Sublist (s.lists (.muQ m)) := by rw [hq]; exact List.sublist_cons_self _ _
    have h1 : InvL (schedResume (Rt.setList s (.muQ m) q) n.owner) := (h.setList hs).sched (by simpa using h.ow _ n hmem)
    have hl : (schedResume (Rt.setList s (.muQ m) q) n.owner).lists (.muQ m) = q := sched_pop_lists h hq hco (by simp)
    have hf : ∀ i, Free s i → Free (schedResume (Rt.setList s (.muQ m) q) n.owner) i := fun i a => (a.setList hs).sched _
    unfold Rt.handoff
    dsimp only
    split
    · cases q with
      | nil => exact ⟨h1.congr rfl (fun _ => rfl) (Nat.le_refl _) rfl, fun i a => hf i a⟩
      | cons n' q' =>
        dsimp only
        split
        · have h2 : InvL (note (setMu (schedResume (Rt.setList s (.muQ m) (n' :: q')) n.owner) m
            { (schedResume (Rt.setList s (.muQ m) (n' :: q')) n.owner).mu m with
              rlocked := ((schedResume (Rt.setList s (.muQ m) (n' :: q')) n.owner).mu m).rlocked + 1 })
              (.grant m n.owner true)) := h1.congr rfl (fun _ => rfl) (Nat.le_refl _) rfl
          have h3 := ih h2 hl
          exact ⟨h3.1, fun i a => h3.2 i (hf i a)⟩
        · exact ⟨h1.congr rfl (fun _ => rfl) (Nat.le_refl _) rfl, fun i a => hf i a⟩
    · exact ⟨h1.congr rfl (fun _ => rfl) (Nat.le_refl _) rfl, fun i a => hf i a⟩

theorem InvL.fastUnlock {s : S} (h : InvL s) (m : Nat) :
    InvL (fastUnlock s m) ∧ ∀ i, Free s i → Free (fastUnlock s m) i := by
  unfold Rt.fastUnlock; dsimp only
  split
  · exact ⟨h, fun _ a => a⟩
  · split
    · exact ⟨h.congr rfl (fun _ => rfl) (Nat.le_refl _) rfl, fun _ a => a⟩
    · split
      · exact ⟨h.congr rfl (fun _ => rfl) (Nat.le_refl _) rfl, fun _ a => a⟩
      · exact InvL.handoff (s := setMu s m _) (h.congr rfl (fun _ => rfl) (Nat.le_refl _) rfl) m _ rfl

theorem selPush_lists_congr {s t : S} (h : s.lists = t.lists) (i k : Nat) (cs : List Nat) :
    (selPush s i k cs).lists = (selPush t i k cs).lists := by
  induction cs generalizing s t k with
  | nil => exact h
  | cons c cs ih =>
    simp only [selPush]
    refine ih ?_ _
    funext K
    simp only [push, setList_lists, rm, h]

theorem InvL.selPush {s : S} (h : InvL s) {i : Nat} (ho : i ≤ s.sco.nextId) (hpc : (s.co i).pc = .blk .sel)
    {cs0 : List Nat} {dl : Int} (hc : (s.co i).call = .select cs0 dl) (k : Nat) (cs : List Nat)
    (hcs : ∀ j c, cs[j]? = some c → cs0[k + j]? = some c) : InvL (selPush s i k cs) := by
  induction cs generalizing s k with
  | nil => exact h
  | cons c cs ih =>
    simp only [Rt.selPush]
    refine ih ?_ ?_ ?_ ?_ (k + 1) ?_
    · refine h.push' (L := .chanQ c) (n := .case i k) rfl ?_ (fun j => .inl rfl) ho (Nat.le_refl _) (fun _ a => a)
      exact ⟨hpc, cs0, dl, hc, by simpa using hcs 0 c rfl⟩
    · exact ho
    · exact hpc
    · exact hc
    · intro j c' hj
      have := hcs (j + 1) c' (by simpa using hj)
      rw [show k + 1 + j = k + (j + 1) by omega]; exact this

theorem recvNow_sub {s : S} {c r : Nat} {ch : Chan} {m : Msg} {o : Option Nat} {t : S}
    (h : recvNow s c r ch = some (m, o, t)) (K : LName) : (t.lists K).Sublist (s.lists K) := by
  have hset : ∀ n q, s.lists (.chanQ c) = n :: q → ((setList s (.chanQ c) q).lists K).Sublist (s.lists K) := by
    intro n q hq; exact setList_sub (by rw [hq]; exact List.sublist_cons_self _ _) K
  unfold recvNow at h
  (repeat' split at h) <;> simp at h <;> (obtain ⟨_, _, h⟩ := h; rw [← h]) <;>
    first | exact hset _ _ (by assumption) | exact List.Sublist.refl _

theorem InvL.recvNow {s : S} (h : InvL s) {c r : Nat} {ch : Chan} {m : Msg} {o : Option Nat} {t : S}
    (hr : recvNow s c r ch = some (m, o, t)) : InvL t :=
  h.mono (recvNow_sub hr) (fun j => .inl (by rw [recvNow_co hr])) (by rw [recvNow_sco hr]; exact Nat.le_refl _)
    (fun i a => by rw [recvNow_jobs hr] at a; exact a)

theorem Free.recvNow {s : S} {i : Nat} (h : Free s i) {c r : Nat} {ch : Chan} {m : Msg} {o : Option Nat} {t : S}
    (hr : recvNow s c r ch = some (m, o, t)) : Free t i := h.congr (recvNow_sub hr)

theorem InvL.resumeOpt {s : S} (h : InvL s) (o : Option Nat) : InvL (resumeOpt s o) := by
  cases o
  · exact h
  · exact h.scoResume _

theorem InvL.alter {s t : S} (h : InvL s) {i : Nat} (hf : Free s i) (hl : t.lists = s.lists)
    (hc : ∀ j, j ≠ i → t.co j = s.co j) (hn : s.sco.nextId ≤ t.sco.nextId) (hj : t.jobs = s.jobs) : InvL t := by
  refine h.mono (fun L => by rw [hl]; exact List.Sublist.refl _) (fun j => ?_) hn (fun _ a => hj ▸ a)
  by_cases e : j = i
  · right; subst e; exact hf.congr (fun L => by rw [hl]; exact List.Sublist.refl _)
  · left; rw [hc j e]

/-! ### the calls -/
section calls
variable {s : S} (h : InvL s) {i : Nat} (hf : Free s i) (ho : i ≤ s.sco.nextId)
include h hf ho

theorem InvL.sendRest (c : Nat) (m : Msg) (dl : Int) (ch : Chan) (hs : sendOf (s.co i) = some c) :
    InvL (sendRest s i c m dl ch) := by
  unfold Rt.sendRest; split
  · refine InvL.retv ?_ ?_ _
    · exact (h).congr rfl (fun _ => rfl) (Nat.le_refl _) rfl
    · exact hf
  · dsimp only
    refine h.pushPause hf ho dl .send (L := .chanQ c) rfl ?_ ?_ (Nat.le_refl _) rfl
    · intro j hj; simp [upd_co, hj]
    · left; refine ⟨rfl, ?_⟩; simpa [upd_co, sendOf] using hs

theorem sendOf_view {c d : Co} (h : view c = view d) : sendOf c = sendOf d := by
  simp only [view, Prod.mk.injEq] at h
  unfold sendOf; rw [h.2.1, h.2.2.1]

theorem InvL.chanSend (c : Nat) (m : Msg) (dl : Int) (hs : sendOf (s.co i) = some c) : InvL (chanSend s i c m dl) := by
  unfold Rt.chanSend; dsimp only
  split
  · exact h.congr rfl (fun _ => rfl) (Nat.le_refl _) rfl
  split
  · exact h.retv hf _
  split
  · exact (h.updFree hf _).retv hf _
  rename_i ch _ _ _
  have h1 := InvL.sendTry (s := note s (.put c i m)) (h.congr rfl (fun _ => rfl) (Nat.le_refl _) rfl) c m ch
  have hf1 : Free (Rt.sendTry (note s (.put c i m)) c m ch).1 i := hf.congr (sendTry_sub (note s (.put c i m)) c m ch)
  split
  · exact (h1.retv hf1 _).scoResume _
  · refine InvL.sendRest h1 hf1 (by simpa using ho) c m dl ch ?_
    have hv := sendTry_view (note s (.put c i m)) c m ch i
    simp only [view, Prod.mk.injEq] at hv
    unfold sendOf; rw [hv.2.1, hv.2.2.1]; exact hs

theorem InvL.chanBcast (c : Nat) (m : Msg) : InvL (chanBcast s i c m) := by
  unfold Rt.chanBcast; dsimp only
  split
  · exact h.congr rfl (fun _ => rfl) (Nat.le_refl _) rfl
  split
  · exact h.retv hf _
  · exact (h.bcastTry _ _ _).yfsr (hf.bcastTry _ _ _) _ _

theorem InvL.chanRecv (c : Nat) (t : Bool) (dl : Int) (hs : t = false → (s.co i).call = .recv c dl) : InvL (chanRecv s i c t dl) := by
  unfold Rt.chanRecv; dsimp only
  split
  · exact h.congr rfl (fun _ => rfl) (Nat.le_refl _) rfl
  split
  · exact h.retv hf _
  split
  · exact (h.updFree hf _).retv hf _
  split
  · rename_i hr
    have hf' := hf.recvNow hr
    exact (((h.recvNow hr).updFree hf' _).retv hf' _).resumeOpt _
  split
  · exact h.retv hf _
  · rename_i ht
    refine h.pushPause hf ho dl .recv (L := .chanQ c) rfl ?_ ?_ (Nat.le_refl _) rfl
    · intro j hj; simp [upd_co, hj]
    · right; refine ⟨rfl, dl, ?_⟩; simpa [upd_co] using hs (by simpa using ht)

theorem InvL.chanClose1 (c : Nat) (ch : Chan) (a : Aft) : InvL (chanClose1 s i c ch a) := by
  unfold Rt.chanClose1; dsimp only
  split
  · refine InvL.setPc ?_ ?_ _
    · exact (h).congr rfl (fun _ => rfl) (Nat.le_refl _) rfl
    · exact hf
  · refine InvL.yfsr ?_ ?_ _ _
    · refine (InvL.closeLoop c _ (s := setChan s c { ch with sclosed := true })
        ((h.setList (L := .chanQ c) (nil_sub _ _)).congr rfl (fun _ => rfl) (Nat.le_refl _) rfl) (fun n hn => h.ow _ n hn)).congr
        rfl (fun _ => rfl) (Nat.le_refl _) rfl
    · exact Free.closeLoop (s := setChan s c { ch with sclosed := true }) c _ (Free.setList hf (nil_sub _ _))

theorem InvL.chanClose (c : Nat) : InvL (chanClose s i c) := by
  unfold Rt.chanClose
  split
  · exact h.congr rfl (fun _ => rfl) (Nat.le_refl _) rfl
  split
  · exact h.retv hf _
  · exact InvL.chanClose1 h hf ho _ _ _

theorem InvL.chanSelect (cs : List Nat) (t : Bool) (dl : Int) (hs : t = false → (s.co i).call = .select cs dl) : InvL (chanSelect s i cs dl t) := by
  unfold Rt.chanSelect; dsimp only
  split
  · exact h.congr rfl (fun _ => rfl) (Nat.le_refl _) rfl
  split
  · exact (h.updFree hf _).retv hf _
  split
  · split
    · exact h.congr rfl (fun _ => rfl) (Nat.le_refl _) rfl
    split
    · exact h.setPc hf _
    split
    · rename_i hr
      refine InvL.resumeOpt ?_ _; refine InvL.setPc ?_ ?_ _
      · exact ((h.recvNow hr)).congr rfl (fun _ => rfl) (Nat.le_refl _) rfl
      · have hf' := Free.recvNow hf hr
        exact hf'
    · exact h.congr rfl (fun _ => rfl) (Nat.le_refl _) rfl
  split
  · exact h.retv hf _
  · rename_i ht
    have hcall := hs (by simpa using ht)
    have h1 : InvL (Rt.setPc s i (.blk .sel)) := h.setPc hf _
    have h2 := InvL.selPush h1 (i := i) ho (by simp [setPc_co]) (cs0 := cs) (dl := dl) (by simpa [setPc_co] using hcall) 0 cs
      (fun j c hj => by simpa using hj)
    refine h2.congr ?_ ?_ ?_ ?_
    · rw [copause_lists]
      dsimp only
      exact selPush_lists_congr (s := Rt.upd s i (fun k => { k with retIdx := -1 })) (t := Rt.setPc s i (.blk .sel)) rfl i 0 cs
    · intro j
      rw [copause_co]; simp only [selPush_co, upd_co, setPc_co]
      split
      · subst_vars; simp only [if_true]; split <;> rfl
      · rfl
    · rw [nextId_copause]; simp
    · simp

theorem InvL.finishLock (m : Nat) (rd : Bool) (dl : Int) (b : Blk)
    (hp : place { s.co i with pc := .blk b, rlocked := rd } (.co i) (.muQ m)) : InvL (finishLock s i m rd dl b) := by
  unfold Rt.finishLock; dsimp only
  refine h.pushPause hf ho dl b (L := .muQ m) rfl ?_ ?_ (Nat.le_refl _) rfl
  · intro j hj; simp [upd_co, hj]
  · simpa [upd_co] using hp

theorem InvL.muLock (m : Nat) (dl : Int) (hs : (s.co i).call = .lock m dl) : InvL (muLock s i m dl) := by
  unfold Rt.muLock; dsimp only
  split
  · exact h.dlClear.retv hf _
  split
  · refine InvL.finishLock h.dlClear hf ho m false dl (.lock false) ?_
    exact .inl ⟨rfl, ⟨dl, by simpa [dlClear_co] using hs⟩, rfl⟩
  · refine InvL.retv ?_ ?_ _
    · exact (h.dlClear).congr rfl (fun _ => rfl) (Nat.le_refl _) rfl
    · exact hf

theorem InvL.muRdlock (m : Nat) (dl : Int) (hs : (s.co i).call = .rdlock m dl) : InvL (muRdlock s i m dl) := by
  unfold Rt.muRdlock; dsimp only
  split
  · exact h.dlClear.retv hf _
  split
  · refine InvL.finishLock h.dlClear hf ho m true dl (.lock true) ?_
    exact .inr (.inl ⟨rfl, ⟨dl, by simpa [dlClear_co] using hs⟩, rfl⟩)
  · refine InvL.retv ?_ ?_ _
    · exact (h.dlClear).congr rfl (fun _ => rfl) (Nat.le_refl _) rfl
    · exact hf

theorem InvL.cvEnq (v m : Nat) (dl : Int) (hs : (s.co i).call = .cvWait v m dl) : InvL (cvEnq s i v dl) := by
  unfold Rt.cvEnq; dsimp only
  refine h.pushPause hf ho dl .cond (L := .cvQ v) rfl ?_ ?_ (Nat.le_refl _) rfl
  · intro j hj; rfl
  · exact ⟨rfl, m, dl, hs⟩

theorem InvL.cvWait (v m : Nat) (dl : Int) (hs : (s.co i).call = .cvWait v m dl) : InvL (cvWait s i v m dl) := by
  unfold Rt.cvWait
  have h0 : InvL (note s (.release m i)) := h.congr rfl (fun _ => rfl) (Nat.le_refl _) rfl
  obtain ⟨h1, h2⟩ := h0.fastUnlock m
  have hf1 := h2 i hf
  split
  · exact (h.updFree hf _).retv hf _
  split
  · exact h1.yfsr hf1 _ _
  · exact InvL.cvEnq h1 hf1 (by simpa using ho) v m dl (by simpa using hs)

theorem InvL.muUnlock (m : Nat) : InvL (muUnlock s i m) := by
  unfold Rt.muUnlock
  have h0 : InvL (note s (.release m i)) := h.congr rfl (fun _ => rfl) (Nat.le_refl _) rfl
  obtain ⟨h1, h2⟩ := h0.fastUnlock m
  have hf1 := h2 i hf
  split
  · exact h1.yfsr hf1 _ _
  · exact h1.coyield hf1 _ _

theorem InvL.wgDone (w : Nat) : InvL (wgDone s i w) := by
  unfold Rt.wgDone; dsimp only
  split
  · exact h.retv hf _
  split
  · split
    · refine InvL.retv ?_ ?_ _
      · exact (h).congr rfl (fun _ => rfl) (Nat.le_refl _) rfl
      · exact hf
    · refine InvL.scoResume (InvL.retv ?_ ?_ _) _
      · exact (h.setList (L := .wgQ w) (nil_sub _ _)).congr rfl (fun _ => rfl) (Nat.le_refl _) rfl
      · exact hf.setList (L := .wgQ w) (nil_sub _ _)
    · refine InvL.yfsr ?_ ?_ _ _
      · refine InvL.schedAll ?_ _ _ ?_
        · exact (h.setList (L := .wgQ w) (nil_sub _ _)).congr rfl (fun _ => rfl) (Nat.le_refl _) rfl
        · intro n hn; exact h.ow _ n hn
      · refine Free.schedAll ?_ _ _
        exact hf.setList (L := .wgQ w) (nil_sub _ _)
  · refine InvL.retv ?_ ?_ _
    · exact (h).congr rfl (fun _ => rfl) (Nat.le_refl _) rfl
    · exact hf

theorem InvL.doStart (hw : Sco.WF s.sco) (g : Option Nat) : InvL (doStart s i g) := by
  unfold Rt.doStart; dsimp only
  have hno : ∀ L n, n ∈ s.lists L → n.owner ≠ s.sco.nextId + 1 := by
    intro L n hn e; have := h.ow L n hn; omega
  refine h.mono (fun L => List.Sublist.refl _) (fun j => ?_) (by simp) (fun _ a => a)
  by_cases e1 : j = s.sco.nextId + 1
  · right; subst e1; intro L n hn e; exact absurd e (hno L n hn)
  · by_cases e2 : j = i
    · right; subst e2; exact hf
    · left; simp [e1, e2, upd_co]

theorem InvL.doCall (hw : Sco.WF s.sco) (c : Call) (hs : (s.co i).call = c) : InvL (doCall s i c) := by
  cases c <;> simp only [Rt.doCall]
  case none => exact h
  case start => exact InvL.doStart h hf ho hw _
  case genStart =>
    unfold doGenStart
    refine InvL.doStart ?_ ?_ ?_ ?_ _
    · exact h.congr rfl (fun _ => rfl) (Nat.le_refl _) rfl
    · exact hf
    · exact ho
    · exact hw
  case yield => exact h.coyield hf _ _
  case sleep =>
    unfold doSleep; split
    · exact h.retv hf _
    · refine InvL.copause ?_ ?_ _ _
      · exact (h).congr rfl (fun _ => rfl) (Nat.le_refl _) rfl
      · exact hf
  case join id dl =>
    unfold doJoin; dsimp only
    split
    · exact InvL.retv (s := note s (.nowait (.joinQ id) i)) (h.congr rfl (fun _ => rfl) (Nat.le_refl _) rfl) hf _
    split
    · exact h.dlClear.retv hf _
    split
    · exact h.dlClear.retv hf _
    · refine h.pushPause hf ho dl .join (L := .joinQ id) rfl ?_ ?_ (Nat.le_refl _) rfl
      · intro j hj; simp [dlClear_co, hj]
      · exact ⟨rfl, dl, by simpa [dlClear_co] using hs⟩
  case suspend =>
    refine InvL.copause ?_ ?_ _ _
    · exact (InvL.updFree h hf (fun k => { k with suspended := true })).congr rfl (fun _ => rfl) (Nat.le_refl _) rfl
    · exact hf
  case resume =>
    unfold doResume
    split
    · exact h.retv hf _
    split
    · exact h.retv hf _
    · refine InvL.scoResume ?_ _; refine InvL.retv ?_ ?_ _
      · exact (h).congr rfl (fun _ => rfl) (Nat.le_refl _) rfl
      · exact hf
  case exit => exact h.setPc hf _
  case getid => exact h.retv hf _
  case lastid => exact h.retv hf _
  case starterid => exact h.retv hf _
  case stats =>
    refine InvL.retv ?_ ?_ _
    · exact (h).congr rfl (fun _ => rfl) (Nat.le_refl _) rfl
    · exact hf
  case chMake =>
    refine InvL.retv ?_ ?_ _
    · exact (h).congr rfl (fun _ => rfl) (Nat.le_refl _) rfl
    · exact hf
  case chRetain =>
    split
    · exact h.congr rfl (fun _ => rfl) (Nat.le_refl _) rfl
    · refine InvL.retv ?_ ?_ _
      · exact (h).congr rfl (fun _ => rfl) (Nat.le_refl _) rfl
      · exact hf
  case chRelease =>
    refine InvL.retv (h.congr (by simp) (fun _ => by simp) (by simp) (by simp)) ?_ _
    exact hf.congr (fun L => by simp)
  case send => exact InvL.chanSend h hf ho _ _ _ (by simp [sendOf, hs])
  case bcast => exact InvL.chanBcast h hf ho _ _
  case recv => exact InvL.chanRecv h hf ho _ _ _ (fun _ => hs)
  case tryrecv => exact InvL.chanRecv h hf ho _ _ _ (by simp)
  case close => exact InvL.chanClose h hf ho _
  case select => exact InvL.chanSelect h hf ho _ _ _ (fun _ => hs)
  case tryselect => exact InvL.chanSelect h hf ho _ _ _ (by simp)
  case chCase =>
    unfold chanCase
    split
    · exact h.congr rfl (fun _ => rfl) (Nat.le_refl _) rfl
    split
    · exact (h.updFree hf _).retv hf _
    · exact h.retv hf _
  case genYield =>
    unfold doGenYield
    split
    · exact h.retv hf _
    · rename_i hg; exact InvL.chanSend h hf ho _ _ _ (by simp [sendOf, hs, hg])
  case lock => exact InvL.muLock h hf ho _ _ hs
  case rdlock => exact InvL.muRdlock h hf ho _ _ hs
  case trylock =>
    unfold muTrylock; split
    · exact h.retv hf _
    · refine InvL.retv ?_ ?_ _
      · exact (h).congr rfl (fun _ => rfl) (Nat.le_refl _) rfl
      · exact hf
  case tryrdlock =>
    unfold muTryrdlock; split
    · exact h.retv hf _
    · refine InvL.retv ?_ ?_ _
      · exact (h).congr rfl (fun _ => rfl) (Nat.le_refl _) rfl
      · exact hf
  case unlock => exact InvL.muUnlock h hf ho _
  case wgAdd =>
    unfold wgAdd; dsimp only
    split
    · exact h.congr rfl (fun _ => rfl) (Nat.le_refl _) rfl
    split
    · exact h.retv hf _
    · refine InvL.retv ?_ ?_ _
      · exact (h).congr rfl (fun _ => rfl) (Nat.le_refl _) rfl
      · exact hf
  case wgDone => exact InvL.wgDone h hf ho _
  case wgWait w dl =>
    unfold wgWait; dsimp only
    split
    · exact h.dlClear.retv hf _
    split
    · exact InvL.coyield (s := note (Rt.dlClear s i) (.nowait (.wgQ w) i)) (h.dlClear.congr rfl (fun _ => rfl) (Nat.le_refl _) rfl) hf _ _
    · refine h.pushPause hf ho dl .wg (L := .wgQ w) rfl ?_ ?_ (Nat.le_refl _) rfl
      · intro j hj; simp [dlClear_co, hj]
      · exact ⟨rfl, dl, by simpa [dlClear_co] using hs⟩
  case cvSignal v =>
    unfold cvSignal
    split
    · exact h.retv hf _
    · rename_i n q hq
      have hsub : q.Sublist (s.lists (.cvQ v)) := by rw [hq]; exact List.sublist_cons_self _ _
      refine InvL.scoResume ?_ _; refine InvL.retv ?_ ?_ _
      · exact (h.setList hsub).congr rfl (fun _ => rfl) (Nat.le_refl _) rfl
      · exact (hf.setList hsub)
  case cvBcast v =>
    exact InvL.yfsr (InvL.schedAll (h.setList (nil_sub _ _)) _ _ (fun n hn => h.ow _ n hn))
      (Free.schedAll (hf.setList (nil_sub _ _)) _ _) _ _
  case cvWait => exact InvL.cvWait h hf ho _ _ _ hs
  case cancel => exact h.setPc hf _
  case setType => exact (h.updFree hf _).retv hf _
  case setState => exact (h.updFree hf _).retv hf _
  case cpush => exact (h.updFree hf _).retv hf _
  case cpop e =>
    unfold doCpop
    split
    · exact h.congr rfl (fun _ => rfl) (Nat.le_refl _) rfl
    · dsimp only; refine InvL.retv ?_ ?_ _
      · split
        · exact InvL.alter h hf rfl (fun j hj => by simp [upd_co, hj]) (Nat.le_refl _) rfl
        · exact (h.updFree hf _)
      · split <;> exact hf
  case sigWatch =>
    unfold doSigWatch
    split
    · exact h.retv hf _
    split
    · exact h.retv hf _
    · refine InvL.retv ?_ ?_ _
      · exact InvL.alter h hf rfl (fun j hj => by simp [upd_co, hj]) (Nat.le_refl _) rfl
      · exact hf
  case sigUnwatch =>
    unfold doSigUnwatch
    split
    · exact h.retv hf _
    split
    · refine InvL.retv ?_ ?_ _
      · exact InvL.alter h hf rfl (fun j hj => by simp [upd_co, hj]) (Nat.le_refl _) rfl
      · exact hf
    · exact h.retv hf _
  case sigWait dl =>
    unfold doSigWait; dsimp only
    split
    · exact h.retv hf _
    split
    · exact (h.updFree hf _).retv hf _
    · refine h.pushPause hf ho dl .sig (L := .sigQ) rfl ?_ ?_ (Nat.le_refl _) rfl
      · intro j hj; simp [upd_co, hj]
      · exact ⟨rfl, dl, by simpa [upd_co] using hs⟩
  case wait =>
    refine InvL.copause ?_ ?_ _ _
    · exact (h).congr rfl (fun _ => rfl) (Nat.le_refl _) rfl
    · exact hf
  case work =>
    refine InvL.setPc ?_ ?_ _
    · exact (h).congr rfl (fun _ => rfl) (Nat.le_refl _) rfl
    · exact hf

end calls
end Neco.Rt
