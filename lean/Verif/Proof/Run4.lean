import Verif.Proof.Run3

/-! # The life of a runtime: queues, faults, results, ids -/

namespace Neco.Run

/-! ## Frees change nothing else -/

theorem free_eq (w : W) (b : Nat) : free w b = { w with heap := (free w b).heap, fault := (free w b).fault } := by
  unfold free; split <;> rfl

theorem freeAll_rest : ∀ (l : List Nat) (w : W), freeAll w l = { w with heap := (freeAll w l).heap, fault := (freeAll w l).fault }
  | [], _ => rfl
  | b :: q, w => by
    have e := freeAll_rest q (free w b)
    simp only [freeAll]
    rw [e, free_eq w b]

theorem freeOpt_rest (w : W) (o : Option Nat) : freeOpt w o = { w with heap := (freeOpt w o).heap, fault := (freeOpt w o).fault } := by
  rw [freeOpt_eq]; exact freeAll_rest _ _

theorem workerFree_rest (w : W) (k : Option Worker) :
    workerFree w k = { w with heap := (workerFree w k).heap, fault := (workerFree w k).fault } := by
  cases k with
  | none => rfl
  | some k => rw [workerFree_eq]; exact freeAll_rest _ _

theorem alloc_rest (w : W) (o : Owner) (ok : Bool) : (alloc w o ok).1 = { w with heap := (alloc w o ok).1.heap, next := (alloc w o ok).1.next } := by
  unfold alloc; split <;> rfl

theorem newThreads_rest (t : Nat) (ok : Nat → Bool) (n i : Nat) (w : W) (acc : List WThread) :
    (newThreads w t ok n i acc).1 = { w with heap := (newThreads w t ok n i acc).1.heap, next := (newThreads w t ok n i acc).1.next } := by
  obtain ⟨k, l, b, e, _⟩ := newThreads_spec t ok n i w acc
  rw [e]; rfl

theorem workerNew_rest (w : W) (t : Nat) (ok : Nat → Bool) (fr : ∀ x, w.next ≤ x → w.heap x = none) :
    (workerNew w t ok).1 = { w with heap := (workerNew w t ok).1.heap, next := (workerNew w t ok).1.next } := by
  rcases workerNew_spec w t ok fr with ⟨k, e⟩ | ⟨k, K, e, _⟩ <;> rw [e] <;> rfl

theorem closeq_rest (w : W) (t f : Nat) : closeq w t f = { w with fds := (closeq w t f).fds, fault := (closeq w t f).fault } := by
  unfold closeq; split <;> rfl

/-! ## Where a thread goes -/

/-- what no piece of `run` changes -/
structure Keep (w w' : W) (t : Nat) : Prop where
  other : ∀ u, u ≠ t → w'.th u = w.th u
  nextId : w'.nextId = w.nextId
  sigfault : w'.sigfault = w.sigfault
  died : w'.died = w.died

/-- the pieces of `run`, apart from memory -/
inductive TauK (w w' : W) (t : Nat) (ok : Nat → Bool) (r : Rtm) : Prop
  | sigOff (hp : (w.th t).pc = .sig) (hm : r.mainthread = false) (ht : w'.th t = { w.th t with pc := .work }) (hh : w'.handler = w.handler) (hl : w'.log = w.log) (hf : w'.fds = w.fds)
  | sigNo (hp : (w.th t).pc = .sig) (hm : r.mainthread = true) (ho : ∃ j, ok j = false) (ht : w'.th t = { w.th t with pc := .zch, ret := NOMEM }) (hh : w'.handler = w.handler) (hl : w'.log = w.log) (hf : w'.fds = w.fds)
  | sig (hp : (w.th t).pc = .sig) (hm : r.mainthread = true) (b : Nat) (ht : w'.th t = { w.th t with pc := .alt, rt := some { r with sigstack := some b } }) (hh : w'.handler = w.handler) (hl : w'.log = w.log) (hf : w'.fds = w.fds)
  | alt (hp : (w.th t).pc = .alt) (ht : w'.th t = { w.th t with pc := .set 0, alt := r.sigstack }) (hh : w'.handler = w.handler) (hl : w'.log = w.log) (hf : w'.fds = w.fds)
  | setEnd (k : Nat) (hp : (w.th t).pc = .set k) (hk : sigs[k]? = none) (ht : w'.th t = { w.th t with pc := .work }) (hh : w'.handler = w.handler) (hl : w'.log = w.log) (hf : w'.fds = w.fds)
  | set (k n : Nat) (hp : (w.th t).pc = .set k) (hk : sigs[k]? = some n)
      (ht : w'.th t = { w.th t with pc := .set (k + 1), rt := some { r with sigold := fun x => if x = n then w.handler n else r.sigold x } })
      (hh : w'.handler = fun x => if x = n then .neco else w.handler x) (hl : w'.log = w.log) (hf : w'.fds = w.fds)
  | workNo (hp : (w.th t).pc = .work) (ho : ∃ j, ok j = false) (ht : w'.th t = { w.th t with pc := .zch, ret := NOMEM }) (hh : w'.handler = w.handler) (hl : w'.log = w.log) (hf : w'.fds = w.fds)
  | work (hp : (w.th t).pc = .work) (k : Worker) (ht : w'.th t = { w.th t with pc := .start, rt := some { r with worker := some k } }) (hh : w'.handler = w.handler) (hl : w'.log = w.log) (hf : w'.fds = w.fds)
  | startNo (hp : (w.th t).pc = .start) (ho : ∃ j, ok j = false) (ht : w'.th t = { w.th t with pc := .zch, ret := NOMEM }) (hh : w'.handler = w.handler) (hl : w'.log = w.log) (hf : w'.fds = w.fds)
  | start (hp : (w.th t).pc = .start) (b : Nat) (ht : w'.th t = { w.th t with pc := .run, rt := some { r with cos := [b] } })
      (hh : w'.handler = w.handler) (hl : w'.log = .ran t :: w.log) (hf : w'.fds = w.fds)
  | fin (hp : (w.th t).pc = .fin) (ht : w'.th t = { w.th t with pc := .zch, rt := some { r with pool := [] }, ret := OK })
      (hh : w'.handler = w.handler) (hl : w'.log = w.log) (hf : w'.fds = (if r.qfd ≠ 0 then closeq w t r.qfd else w).fds)
  | zch (hp : (w.th t).pc = .zch) (ht : w'.th t = { w.th t with pc := .free }) (hh : w'.handler = w.handler) (hl : w'.log = w.log) (hf : w'.fds = w.fds)
  | freeNo (hp : (w.th t).pc = .free) (hs : r.mainthread = false ∨ r.sigstack = none) (ht : w'.th t = { w.th t with pc := .dl }) (hh : w'.handler = w.handler) (hl : w'.log = w.log) (hf : w'.fds = w.fds)
  | free (hp : (w.th t).pc = .free) (hm : r.mainthread = true) (hs : r.sigstack ≠ none) (ht : w'.th t = { w.th t with pc := .unset 0 }) (hh : w'.handler = w.handler) (hl : w'.log = w.log) (hf : w'.fds = w.fds)
  | unsetEnd (k : Nat) (hp : (w.th t).pc = .unset k) (hk : sigs[k]? = none) (ht : w'.th t = { w.th t with pc := .dl }) (hh : w'.handler = w.handler) (hl : w'.log = w.log) (hf : w'.fds = w.fds)
  | unset (k n : Nat) (hp : (w.th t).pc = .unset k) (hk : sigs[k]? = some n) (ht : w'.th t = { w.th t with pc := .unset (k + 1) })
      (hh : w'.handler = fun x => if x = n then r.sigold n else w.handler x) (hl : w'.log = w.log) (hf : w'.fds = w.fds)
  | dl (hp : (w.th t).pc = .dl) (ht : w'.th t = { w.th t with pc := .wfree }) (hh : w'.handler = w.handler) (hl : w'.log = w.log) (hf : w'.fds = w.fds)
  | wfree (hp : (w.th t).pc = .wfree) (ht : w'.th t = { w.th t with pc := .rel, rt := some { r with jobs := [] } }) (hh : w'.handler = w.handler) (hl : w'.log = w.log) (hf : w'.fds = w.fds)
  | rel (hp : (w.th t).pc = .rel) (ht : w'.th t = { w.th t with pc := .out, rt := none })
      (hh : w'.handler = w.handler) (hl : w'.log = .ret t (w.th t).ret :: w.log) (hf : w'.fds = w.fds)

theorem newThreads_fail (t : Nat) (ok : Nat → Bool) : ∀ (n i : Nat) (w : W) (acc : List WThread), (newThreads w t ok n i acc).2.2 = false → ∃ j, ok j = false
  | 0, _, _, _, h => by simp [newThreads] at h
  | n + 1, i, w, acc, h => by
    cases h0 : ok i with
    | false => exact ⟨i, h0⟩
    | true =>
      cases h1 : ok (i + 1) with
      | false => exact ⟨i + 1, h1⟩
      | true =>
        simp only [newThreads, h0, h1, alloc_rt_ok] at h
        exact newThreads_fail t ok n _ _ _ h

theorem workerNew_fail {w w1 : W} {t : Nat} {ok : Nat → Bool} (h : workerNew w t ok = (w1, none)) : ∃ j, ok j = false := by
  cases h0 : ok 0 with
  | false => exact ⟨0, h0⟩
  | true =>
    cases h1 : ok 1 with
    | false => exact ⟨1, h1⟩
    | true =>
      simp only [workerNew, h0, h1, alloc_rt_ok] at h
      split at h
      · rename_i l _ e
        exact newThreads_fail t ok _ _ _ _ (by rw [e])
      · cases h

set_option maxHeartbeats 1000000 in
theorem tau_cases {w w' : W} {t : Nat} {ok : Nat → Bool} (i : Inv w) (h : tau w t ok = some w') :
    ∃ r, (w.th t).rt = some r ∧ Keep w w' t ∧ TauK w w' t ok r := by
  cases hr : (w.th t).rt with
  | none => simp [tau, hr] at h
  | some r =>
    refine ⟨r, rfl, ?_⟩
    cases hp : (w.th t).pc with
    | out => simp [tau, hr, hp] at h
    | run => simp [tau, hr, hp] at h
    | sig =>
      simp only [tau, hr, hp] at h
      split at h
      · rename_i hm
        cases h
        exact ⟨⟨fun u hu => by simp [goto, setTh, hu], rfl, rfl, rfl⟩, .sigOff hp hm (by simp [goto, setTh]) rfl rfl rfl⟩
      · rename_i hm
        have hm : r.mainthread = true := by simpa using hm
        cases ho : ok 0 with
        | false =>
          rw [ho, alloc_rt_no] at h
          cases h
          exact ⟨⟨fun u hu => by simp [failed, setTh, hu], rfl, rfl, rfl⟩, .sigNo hp hm ⟨0, ho⟩ (by simp [failed, setTh]) rfl rfl rfl⟩
        | true =>
          rw [ho, alloc_rt_ok] at h
          cases h
          exact ⟨⟨fun u hu => by simp [goto, setRt, setTh, hu, got], rfl, rfl, rfl⟩,
            .sig hp hm w.next (by simp [goto, setRt, setTh, got, hr]) rfl rfl rfl⟩
    | alt =>
      simp only [tau, hr, hp] at h
      cases h
      exact ⟨⟨fun u hu => by simp [goto, setTh, hu], rfl, rfl, rfl⟩, .alt hp (by simp [goto, setTh, hr]) rfl rfl rfl⟩
    | set k =>
      simp only [tau, hr, hp] at h
      split at h
      · rename_i hk
        cases h
        exact ⟨⟨fun u hu => by simp [goto, setTh, hu], rfl, rfl, rfl⟩, .setEnd k hp hk (by simp [goto, setTh]) rfl rfl rfl⟩
      · rename_i n hk
        cases h
        exact ⟨⟨fun u hu => by simp [goto, setRt, setTh, hu], rfl, rfl, rfl⟩,
          .set k n hp hk (by simp [goto, setRt, setTh, hr]) rfl rfl rfl⟩
    | work =>
      simp only [tau, hr, hp] at h
      rcases workerNew_spec w t ok i.fresh with ⟨k, e⟩ | ⟨k, K, e, _⟩
      · have ho := workerNew_fail e
        rw [e] at h
        cases h
        exact ⟨⟨fun u hu => by simp [failed, setTh, hu], rfl, rfl, rfl⟩, .workNo hp ho (by simp [failed, setTh]) rfl rfl rfl⟩
      · rw [e] at h
        cases h
        exact ⟨⟨fun u hu => by simp [goto, setRt, setTh, hu, got], rfl, rfl, rfl⟩,
          .work hp K (by simp [goto, setRt, setTh, got, hr]) rfl rfl rfl⟩
    | start =>
      simp only [tau, hr, hp] at h
      cases ho : ok 0 with
      | false =>
        rw [ho, alloc_rt_no] at h
        cases h
        exact ⟨⟨fun u hu => by simp [failed, setTh, hu], rfl, rfl, rfl⟩, .startNo hp ⟨0, ho⟩ (by simp [failed, setTh]) rfl rfl rfl⟩
      | true =>
        rw [ho, alloc_rt_ok] at h
        dsimp only at h
        split at h
        · cases h
          exact ⟨⟨fun u hu => by simp [note, goto, setRt, setTh, hu, got], rfl, rfl, rfl⟩,
            .start hp w.next (by simp [note, goto, setRt, setTh, got, hr]) rfl rfl rfl⟩
        · rename_i h1
          cases h
          rw [free_eq]
          exact ⟨⟨fun u hu => by simp [failed, setTh, hu, got], rfl, rfl, rfl⟩,
            .startNo hp ⟨1, by simpa using h1⟩ (by simp [failed, setTh, got]) rfl rfl rfl⟩
    | fin =>
      simp only [tau, hr, hp] at h
      cases h
      rw [freeAll_rest]
      split
      · rename_i hq
        rw [closeq_rest]
        exact ⟨⟨fun u hu => by simp [setRt, setTh, hu], rfl, rfl, rfl⟩,
          .fin hp (by simp [setRt, setTh, hr]) rfl rfl (by rw [if_pos hq]; rfl)⟩
      · rename_i hq
        exact ⟨⟨fun u hu => by simp [setRt, setTh, hu], rfl, rfl, rfl⟩,
          .fin hp (by simp [setRt, setTh, hr]) rfl rfl (by rw [if_neg hq]; rfl)⟩
    | zch =>
      simp only [tau, hr, hp] at h
      cases h
      rw [freeOpt_rest, freeAll_rest]
      exact ⟨⟨fun u hu => by simp [goto, setTh, hu], rfl, rfl, rfl⟩, .zch hp (by simp [goto, setTh]) rfl rfl rfl⟩
    | free =>
      simp only [tau, hr, hp] at h
      split at h
      · rename_i hm
        cases h
        exact ⟨⟨fun u hu => by simp [goto, setTh, hu], rfl, rfl, rfl⟩, .freeNo hp (.inl hm) (by simp [goto, setTh]) rfl rfl rfl⟩
      · rename_i hm
        have hm : r.mainthread = true := by simpa using hm
        split at h
        · rename_i hs
          cases h
          exact ⟨⟨fun u hu => by simp [goto, setTh, hu], rfl, rfl, rfl⟩, .freeNo hp (.inr hs) (by simp [goto, setTh]) rfl rfl rfl⟩
        · rename_i b hs
          cases h
          rw [free_eq]
          exact ⟨⟨fun u hu => by simp [goto, setTh, hu], rfl, rfl, rfl⟩, .free hp hm (by rw [hs]; simp) (by simp [goto, setTh]) rfl rfl rfl⟩
    | unset k =>
      simp only [tau, hr, hp] at h
      split at h
      · rename_i hk
        cases h
        exact ⟨⟨fun u hu => by simp [goto, setTh, hu], rfl, rfl, rfl⟩, .unsetEnd k hp hk (by simp [goto, setTh]) rfl rfl rfl⟩
      · rename_i n hk
        cases h
        exact ⟨⟨fun u hu => by simp [goto, setTh, hu], rfl, rfl, rfl⟩, .unset k n hp hk (by simp [goto, setTh]) rfl rfl rfl⟩
    | dl =>
      simp only [tau, hr, hp] at h
      cases h
      split
      all_goals exact ⟨⟨fun u hu => by simp [goto, setTh, hu], rfl, rfl, rfl⟩, .dl hp (by simp [goto, setTh]) rfl rfl rfl⟩
    | wfree =>
      simp only [tau, hr, hp] at h
      cases h
      rw [workerFree_rest, jobsDone_eq]
      exact ⟨⟨fun u hu => by simp [goto, setRt, setTh, hu], rfl, rfl, rfl⟩, .wfree hp (by simp [goto, setRt, setTh, hr]) rfl rfl rfl⟩
    | rel =>
      simp only [tau, hr, hp] at h
      cases h
      rw [free_eq]
      exact ⟨⟨fun u hu => by simp [note, setTh, hu], rfl, rfl, rfl⟩, .rel hp (by simp [note, setTh]) rfl rfl rfl⟩

end Neco.Run
