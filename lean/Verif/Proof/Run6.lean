import Verif.Proof.Run5

/-! # The life of a runtime: event queues, faults -/

namespace Neco.Run

/-! ## Jobs -/

/-- every job in a worker thread belongs to a coroutine that did not end -/
def InvJ (w : W) : Prop := ∀ t r, (w.th t).rt = some r → ∀ b ∈ r.jobs, b ∈ r.cos

theorem InvJ.of {w w' : W} (t : Nat) (j : InvJ w) (ho : ∀ u, u ≠ t → w'.th u = w.th u)
    (ht : ∀ r, (w'.th t).rt = some r → ∀ b ∈ r.jobs, b ∈ r.cos) : InvJ w' := by
  intro u r hr
  by_cases e : u = t
  · subst e; exact ht r hr
  · rw [ho u e] at hr; exact j u r hr

theorem InvJ.rt {w w' : W} {t : Nat} {r : Rtm} (f : Rtm → Rtm) (j : InvJ w) (hr : (w.th t).rt = some r) (ht : w'.th = (setRt w t f).th)
    (h : (∀ b ∈ r.jobs, b ∈ r.cos) → ∀ b ∈ (f r).jobs, b ∈ (f r).cos) : InvJ w' := by
  refine InvJ.of t j (fun u hu => by rw [ht]; simp [setRt, setTh, hu]) (fun r' hr' => ?_)
  rw [ht] at hr'
  simp only [setRt, setTh, if_true, hr, Option.map_some, Option.some.injEq] at hr'
  subst hr'
  exact h (j t r hr)

theorem InvJ.same {w w' : W} (j : InvJ w) (h : w'.th = w.th) : InvJ w' := by
  intro t r hr; rw [h] at hr; exact j t r hr

theorem step_invJ {w w' : W} {a : Act} (i : Inv w) (j : InvJ w) (hp : Patient w a) (h : step w a = some w') : InvJ w' := by
  cases a with
  | tau t ok =>
    simp only [step] at h
    split at h
    · cases h
    obtain ⟨r, hr, k, tk⟩ := tau_cases i h
    have a3 := (i.th t).pre r hr
    have a6 := (i.th t).fin r hr
    have jt := j t r hr
    refine InvJ.of t j k.other (fun r' hr' => ?_)
    cases tk <;> rename_i ht _ _ _ <;> rw [ht] at hr' <;> simp_all [before]
    all_goals (try subst hr')
    all_goals simp_all
  | call t ok =>
    simp only [step] at h
    split at h
    · cases h
    cases ok with
    | false =>
      cases h
      intro u r hr
      by_cases e : u = t
      · subst e; simp [note, setTh] at hr; exact j u r hr
      · simp [note, setTh, e] at hr; exact j u r hr
    | true =>
      rw [alloc_rt_ok] at h
      cases h
      intro u r hr
      by_cases e : u = t
      · subst e; simp [note, setTh] at hr; subst hr; simp
      · simp [note, setTh, e, got] at hr; exact j u r hr
  | finish t =>
    simp only [step] at h
    split at h
    · cases h
    cases hi : inRun w t with
    | none => rw [hi] at h; cases h
    | some r =>
      rw [hi] at h
      dsimp only at h
      split at h
      · cases h
        intro u r hr
        by_cases e : u = t
        · subst e; simp [goto, setTh] at hr; exact j u r hr
        · simp [goto, setTh, e] at hr; exact j u r hr
      · cases h
  | begin t ok =>
    simp only [step] at h
    split at h
    · cases h
    cases hi : inRun w t with
    | none => rw [hi] at h; cases h
    | some r =>
      rw [hi] at h
      obtain ⟨hp, hr⟩ := inRun_some hi
      dsimp only at h
      split at h
      · cases h; exact j.rt _ hr rfl (fun g b hb => by simp [g b hb])
      · cases ok with
        | false => cases h; exact j
        | true => cases h; exact j.rt _ hr rfl (fun g b hb => by simp [g b hb])
  | endco t b =>
    simp only [step] at h
    split at h
    · cases h
    cases hi : inRun w t with
    | none => rw [hi] at h; cases h
    | some r =>
      rw [hi] at h
      obtain ⟨hq, hr⟩ := inRun_some hi
      dsimp only at h
      split at h
      · cases h
        refine j.rt _ hr rfl (fun g c hc => ?_)
        have hn := hp r hr
        have hc' : c ≠ b := fun e => hn (e ▸ hc)
        exact (List.mem_erase_of_ne hc').mpr (g c hc)
      · cases h
  | mkchan t ok =>
    simp only [step] at h
    split at h
    · cases h
    cases hi : inRun w t with
    | none => rw [hi] at h; cases h
    | some r =>
      rw [hi] at h
      obtain ⟨hq, hr⟩ := inRun_some hi
      dsimp only at h
      split at h
      · cases h; exact j.rt _ hr rfl id
      · cases h; rw [alloc_rest]; exact j
  | relchan t b ok =>
    simp only [step] at h
    split at h
    · cases h
    cases hi : inRun w t with
    | none => rw [hi] at h; cases h
    | some r =>
      rw [hi] at h
      obtain ⟨hq, hr⟩ := inRun_some hi
      dsimp only at h
      split at h
      · split at h
        · cases h; exact j.rt _ hr rfl id
        · cases h; rw [free_eq]; exact j
      · cases h
  | grow t ok =>
    simp only [step] at h
    split at h
    · cases h
    cases hi : inRun w t with
    | none => rw [hi] at h; cases h
    | some r =>
      rw [hi] at h
      obtain ⟨hq, hr⟩ := inRun_some hi
      dsimp only at h
      cases ok with
      | false => cases h; exact j
      | true => cases h; rw [freeOpt_rest]; exact j.rt _ hr rfl id
  | wait t now q =>
    simp only [step] at h
    split at h
    · cases h
    cases hi : inRun w t with
    | none => rw [hi] at h; cases h
    | some r =>
      rw [hi] at h
      obtain ⟨hq, hr⟩ := inRun_some hi
      dsimp only at h
      split at h
      · split at h
        · cases h; exact j
        · split at h
          · cases h; exact j.rt _ hr rfl id
          · cases h
      · cases h; exact j.rt _ hr rfl id
  | unwait t =>
    simp only [step] at h
    split at h
    · cases h
    cases hi : inRun w t with
    | none => rw [hi] at h; cases h
    | some r =>
      rw [hi] at h
      obtain ⟨hq, hr⟩ := inRun_some hi
      dsimp only at h
      split at h
      · cases h
      · cases h; exact j.rt _ hr rfl id
  | rc t now =>
    simp only [step] at h
    split at h
    · cases h
    cases hi : inRun w t with
    | none => rw [hi] at h; cases h
    | some r =>
      rw [hi] at h
      obtain ⟨hq, hr⟩ := inRun_some hi
      dsimp only at h
      split at h
      · cases h; rw [closeq_rest]; exact j.rt _ hr rfl id
      · cases h; exact j
  | drop t =>
    simp only [step] at h
    split at h
    · cases h
    cases hi : inRun w t with
    | none => rw [hi] at h; cases h
    | some r =>
      rw [hi] at h
      obtain ⟨hq, hr⟩ := inRun_some hi
      dsimp only at h
      split at h
      · cases h
      · cases h; rw [free_eq]; exact j.rt _ hr rfl id
  | random t =>
    simp only [step] at h
    split at h
    · cases h
    cases hi : inRun w t with
    | none => rw [hi] at h; cases h
    | some r =>
      rw [hi] at h
      obtain ⟨hq, hr⟩ := inRun_some hi
      dsimp only at h
      split at h
      · cases h; exact j
      · cases h; exact j.rt _ hr rfl id
  | submit t b =>
    simp only [step] at h
    split at h
    · cases h
    cases hi : inRun w t with
    | none => rw [hi] at h; cases h
    | some r =>
      rw [hi] at h
      obtain ⟨hq, hr⟩ := inRun_some hi
      dsimp only at h
      split at h
      · rename_i hb
        cases h
        refine j.rt _ hr rfl (fun g c hc => ?_)
        rcases List.mem_cons.mp hc with e | e
        · rw [e]; exact hb
        · exact g c e
      · cases h
  | done t b =>
    simp only [step] at h
    split at h
    · cases h
    cases hr : (w.th t).rt with
    | none => rw [hr] at h; cases h
    | some r =>
      rw [hr] at h
      dsimp only at h
      split at h
      · cases h
        have e : jobDone w r b = { w with fault := (jobDone w r b).fault } := by
          unfold jobDone
          rw [use_heap (use w r.blk) b, use_heap w r.blk]
        rw [e]
        exact j.rt _ hr rfl (fun g c hc => g c (List.mem_of_mem_erase hc))
      · cases h
  | watch t n =>
    simp only [step] at h
    split at h
    · cases h
    cases hi : inRun w t with
    | none => rw [hi] at h; cases h
    | some r =>
      rw [hi] at h
      obtain ⟨hq, hr⟩ := inRun_some hi
      dsimp only at h
      cases h; exact j.rt _ hr rfl id
  | signal t n =>
    simp only [step] at h
    split at h
    · cases h
    cases h
    intro u r hr
    rcases deliver_th w t n u with g | ⟨r1, q, hr1, g⟩
    · rw [g] at hr; exact j u r hr
    · rw [g] at hr
      simp only [Option.some.injEq] at hr
      subst hr
      exact j u r1 hr1
  | wsignal t n =>
    simp only [step] at h
    split at h
    · cases h
    split at h
    · cases h
    · split at h
      · cases h
      · cases h
        unfold deliverWorker
        split <;> exact j
  | sigaction n d =>
    simp only [step] at h
    split at h
    · cases h
    · cases h; exact j
  | sigaltstack t =>
    simp only [step] at h
    split at h
    · cases h
    · cases h
      intro u r hr
      by_cases e : u = t
      · subst e; simp [setTh, alloc] at hr; exact j u r hr
      · simp [setTh, e, alloc] at hr; exact j u r hr
  | «open» f =>
    simp only [step] at h
    split at h
    · cases h
    split at h
    · cases h; exact j
    · cases h
  | close f =>
    simp only [step] at h
    split at h
    · cases h
    split at h
    · cases h; exact j
    · cases h

theorem reach_invJ {p : W → Act → Prop} (hp : ∀ w a, p w a → Patient w a) {w : W} (r : Reach p w) : InvJ w := by
  induction r with
  | init => intro t r hr; simp [init] at hr
  | step r h0 h ih => exact step_invJ (reach_inv r) ih (hp _ _ h0) h

/-! ## Faults -/

theorem free_ok {w : W} {b : Nat} (h : w.heap b ≠ none) : (free w b).fault = w.fault := by unfold free; rw [if_neg h]

theorem freeAll_ok {w : W} {l : List Nat} (h : ∀ b ∈ l, w.heap b ≠ none) (nd : l.Nodup) : (freeAll w l).fault = w.fault := by
  rw [freeAll_eq l w h nd]

theorem use_ok {w : W} {b : Nat} (h : w.heap b ≠ none) : use w b = w := by unfold use; rw [if_neg h]

theorem jobDone_ok {w : W} {r : Rtm} {b : Nat} (h : w.heap r.blk ≠ none) (hb : w.heap b ≠ none) : jobDone w r b = w := by
  unfold jobDone; rw [use_ok h, use_ok hb]

theorem tau_fault {w w' : W} {t : Nat} {ok : Nat → Bool} (i : Inv w) (j : InvJ w) (h : tau w t ok = some w') : w'.fault = w.fault := by
  cases hr : (w.th t).rt with
  | none => simp [tau, hr] at h
  | some r =>
    obtain ⟨b1, b2, b3⟩ := rtm_inv i hr
    have live : ∀ b ∈ blocks (w.th t).pc r, w.heap b ≠ none := fun b hb => by rw [(b2 b).mpr hb]; simp
    cases hp : (w.th t).pc with
    | out => simp [tau, hr, hp] at h
    | run => simp [tau, hr, hp] at h
    | sig =>
      simp only [tau, hr, hp] at h
      split at h
      · cases h; rfl
      · cases ho : ok 0 with
        | false => rw [ho, alloc_rt_no] at h; cases h; rfl
        | true => rw [ho, alloc_rt_ok] at h; cases h; rfl
    | alt => simp only [tau, hr, hp] at h; cases h; rfl
    | set k =>
      simp only [tau, hr, hp] at h
      split at h <;> cases h <;> rfl
    | work =>
      simp only [tau, hr, hp] at h
      rcases workerNew_spec w t ok i.fresh with ⟨k, e⟩ | ⟨k, K, e, _⟩ <;> rw [e] at h <;> cases h <;> rfl
    | start =>
      simp only [tau, hr, hp] at h
      cases ho : ok 0 with
      | false => rw [ho, alloc_rt_no] at h; cases h; rfl
      | true =>
        rw [ho, alloc_rt_ok] at h
        dsimp only at h
        split at h
        · cases h; rfl
        · cases h
          show (free (got w t 1) w.next).fault = w.fault
          exact free_ok (by simp [got])
    | fin =>
      simp only [tau, hr, hp] at h
      cases h
      have hpool : ∀ b ∈ r.pool, w.heap b ≠ none := fun b hb => live b (by simp [blocks, hb])
      have ndp : r.pool.Nodup := by
        unfold blocks at b3
        simp only [List.nodup_cons, List.nodup_append] at b3
        exact b3.2.2.1.2.1.2.1.2.1
      show (freeAll (if r.qfd ≠ 0 then closeq w t r.qfd else w) r.pool).fault = w.fault
      by_cases hq : r.qfd ≠ 0
      · rw [if_pos hq]
        have := (i.th t).q r hr (by rw [hp]; rfl) hq
        unfold closeq
        rw [if_pos this]
        exact freeAll_ok (w := { w with fds := fun x => if x = r.qfd then none else w.fds x }) hpool ndp
      · rw [if_neg hq]
        exact freeAll_ok hpool ndp
    | zch =>
      simp only [tau, hr, hp] at h
      cases h
      show (freeOpt (freeAll w r.zchans) r.zchanpool).fault = w.fault
      rw [freeOpt_eq, ← freeAll_append]
      rw [hp] at b3 live
      unfold blocks zB at b3
      simp only [afterZ, List.nodup_cons, List.nodup_append] at b3
      have nz := b3.2.2.1.1
      refine freeAll_ok (fun b hb => live b ?_) ?_
      · simp only [blocks, zB, afterZ]
        simp at hb ⊢
        grind
      · simp [List.nodup_append] at nz ⊢; grind
    | free =>
      simp only [tau, hr, hp] at h
      split at h
      · cases h; rfl
      · split at h
        · cases h; rfl
        · rename_i b hs
          cases h
          show (free w b).fault = w.fault
          exact free_ok (live b (by simp [blocks, sigB, hp, afterS, hs]))
    | unset k => simp only [tau, hr, hp] at h; split at h <;> cases h <;> rfl
    | dl => simp only [tau, hr, hp] at h; cases h; simp only [goto, setTh]; split <;> rfl
    | wfree =>
      simp only [tau, hr, hp] at h
      have hj : r.jobs = [] := by
        have hc := ((i.th t).post r hr (by rw [hp]; rfl)).1
        have := j t r hr
        rw [hc] at this
        cases hjj : r.jobs with
        | nil => rfl
        | cons x q => exact absurd (this x (by rw [hjj]; simp)) (by simp)
      rw [hj] at h
      cases h
      show (workerFree w r.worker).fault = w.fault
      cases hk : r.worker with
      | none => rfl
      | some k =>
        rw [workerFree_eq]
        rw [hp] at b3 live
        refine freeAll_ok (fun b hb => live b (by simp [blocks, wB, hk, hb])) ?_
        unfold blocks wB at b3
        simp only [hk, List.nodup_cons, List.nodup_append] at b3
        simpa using b3.2.2.1.2.1.1
    | rel =>
      simp only [tau, hr, hp] at h
      cases h
      show (free w r.blk).fault = w.fault
      exact free_ok (live _ (by simp [blocks]))

theorem step_fault {w w' : W} {a : Act} (i : Inv w) (j : InvJ w) (h : step w a = some w') : w'.fault = w.fault := by
  cases a with
  | tau t ok =>
    simp only [step] at h
    split at h
    · cases h
    exact tau_fault i j h
  | call t ok =>
    simp only [step] at h
    split at h
    · cases h
    cases ok with
    | false => cases h; rfl
    | true => rw [alloc_rt_ok] at h; cases h; rfl
  | finish t =>
    simp only [step] at h
    split at h
    · cases h
    split at h
    · cases h
    · split at h
      · cases h; rfl
      · cases h
  | begin t ok =>
    simp only [step] at h
    split at h
    · cases h
    split at h
    · cases h
    · split at h
      · cases h; rfl
      · cases ok <;> cases h <;> rfl
  | endco t b =>
    simp only [step] at h
    split at h
    · cases h
    split at h
    · cases h
    · split at h
      · cases h; rfl
      · cases h
  | mkchan t ok =>
    simp only [step] at h
    split at h
    · cases h
    split at h
    · cases h
    · split at h
      · cases h; rfl
      · cases h; rw [alloc_rest]
  | relchan t b ok =>
    simp only [step] at h
    split at h
    · cases h
    split at h
    · cases h
    · split at h
      · rename_i hb
        split at h
        · cases h; rfl
        · cases h; exact free_ok (by rw [hb]; simp)
      · cases h
  | grow t ok =>
    simp only [step] at h
    split at h
    · cases h
    cases hi : inRun w t with
    | none => rw [hi] at h; cases h
    | some r =>
      rw [hi] at h
      obtain ⟨hq, hr⟩ := inRun_some hi
      dsimp only at h
      cases ok with
      | false => cases h; rfl
      | true =>
        rw [alloc_rt_ok] at h
        cases h
        show (freeOpt (got w t 1) r.zchanpool).fault = w.fault
        cases hz : r.zchanpool with
        | none => rfl
        | some b =>
          have hb : w.heap b = some (.rt t) := ((rtm_inv i hr).2.1 b).mpr (by simp [blocks, zB, hq, afterZ, hz])
          show (free (got w t 1) b).fault = w.fault
          exact free_ok (by
            simp only [got]
            split
            · simp
            · rw [hb]; simp)
  | wait t now q =>
    simp only [step] at h
    split at h
    · cases h
    split at h
    · cases h
    · split at h
      · split at h
        · cases h; rfl
        · split at h
          · cases h; rfl
          · cases h
      · cases h; rfl
  | unwait t =>
    simp only [step] at h
    split at h
    · cases h
    split at h
    · cases h
    · split at h
      · cases h
      · cases h; rfl
  | rc t now =>
    simp only [step] at h
    split at h
    · cases h
    cases hi : inRun w t with
    | none => rw [hi] at h; cases h
    | some r =>
      rw [hi] at h
      obtain ⟨hq, hr⟩ := inRun_some hi
      dsimp only at h
      split at h
      · rename_i hc
        cases h
        have := (i.th t).q r hr (by rw [hq]; rfl) (by omega)
        show (closeq w t r.qfd).fault = w.fault
        unfold closeq
        rw [if_pos this]
      · cases h; rfl
  | drop t =>
    simp only [step] at h
    split at h
    · cases h
    cases hi : inRun w t with
    | none => rw [hi] at h; cases h
    | some r =>
      rw [hi] at h
      obtain ⟨hq, hr⟩ := inRun_some hi
      dsimp only at h
      split at h
      · cases h
      · rename_i b q hpl
        cases h
        have hb : w.heap b = some (.rt t) := ((rtm_inv i hr).2.1 b).mpr (by simp [blocks, hpl])
        exact free_ok (by rw [hb]; simp)
  | random t =>
    simp only [step] at h
    split at h
    · cases h
    split at h
    · cases h
    · split at h <;> cases h <;> rfl
  | submit t b =>
    simp only [step] at h
    split at h
    · cases h
    split at h
    · cases h
    · split at h
      · cases h; rfl
      · cases h
  | done t b =>
    simp only [step] at h
    split at h
    · cases h
    cases hr : (w.th t).rt with
    | none => rw [hr] at h; cases h
    | some r =>
      rw [hr] at h
      dsimp only at h
      split at h
      · rename_i hb
        cases h
        obtain ⟨b1, b2, b3⟩ := rtm_inv i hr
        have h1 : w.heap r.blk = some (.rt t) := (b2 _).mpr (by simp [blocks])
        have h2 : w.heap b = some (.rt t) := (b2 _).mpr (by simp [blocks, j t r hr b hb])
        rw [jobDone_ok (by rw [h1]; simp) (by rw [h2]; simp)]
        rfl
      · cases h
  | watch t n =>
    simp only [step] at h
    split at h
    · cases h
    split at h
    · cases h
    · cases h; rfl
  | signal t n =>
    simp only [step] at h
    split at h
    · cases h
    cases h
    exact (deliver_same w t n).2.2.2.2.2.2.2.1
  | wsignal t n =>
    simp only [step] at h
    split at h
    · cases h
    split at h
    · cases h
    · split at h
      · cases h
      · cases h
        unfold deliverWorker
        split <;> rfl
  | sigaction n d =>
    simp only [step] at h
    split at h
    · cases h
    · cases h; rfl
  | sigaltstack t =>
    simp only [step] at h
    split at h
    · cases h
    · cases h; rfl
  | «open» f =>
    simp only [step] at h
    split at h
    · cases h
    split at h
    · cases h; rfl
    · cases h
  | close f =>
    simp only [step] at h
    split at h
    · cases h
    split at h
    · cases h; rfl
    · cases h

theorem reach_fault {p : W → Act → Prop} (hp : ∀ w a, p w a → Patient w a) {w : W} (r : Reach p w) : w.fault = false := by
  induction r with
  | init => rfl
  | step r h0 h ih => rw [step_fault (reach_inv r) (reach_invJ hp r) h]; exact ih

/-! ## Event queues -/

/-- an open event queue of a thread's runtime is the one the runtime knows, and not descriptor 0 -/
def InvQ (w : W) : Prop := ∀ t f, w.fds f = some (.rt t) → f ≠ 0 ∧ afterF (w.th t).pc = false ∧ ∃ r, (w.th t).rt = some r ∧ f = r.qfd

theorem InvQ.rt {w w' : W} {t : Nat} {r : Rtm} (f : Rtm → Rtm) (q : InvQ w) (hr : (w.th t).rt = some r) (ht : w'.th = (setRt w t f).th)
    (hf : w'.fds = w.fds) (h : (f r).qfd = r.qfd) : InvQ w' := by
  intro u x hx
  rw [hf] at hx
  obtain ⟨h0, h1, r1, hr1, e1⟩ := q u x hx
  rw [ht]
  by_cases e : u = t
  · subst e
    rw [hr] at hr1; cases hr1
    exact ⟨h0, by simpa [setRt, setTh] using h1, f r, by simp [setRt, setTh, hr], by rw [e1, h]⟩
  · exact ⟨h0, by simpa [setRt, setTh, e] using h1, r1, by simp [setRt, setTh, e, hr1], e1⟩

theorem InvQ.th {w w' : W} {t : Nat} (q : InvQ w) (ho : ∀ u, u ≠ t → w'.th u = w.th u) (hf : w'.fds = w.fds)
    (h : ∀ r, (w.th t).rt = some r → afterF (w.th t).pc = false →
      (afterF (w'.th t).pc = false ∧ ∃ r', (w'.th t).rt = some r' ∧ r'.qfd = r.qfd) ∨ r.qfd = 0) : InvQ w' := by
  intro u x hx
  rw [hf] at hx
  obtain ⟨h0, h1, r1, hr1, e1⟩ := q u x hx
  by_cases e : u = t
  · subst e
    rcases h r1 hr1 h1 with ⟨g1, r', g2, g3⟩ | g
    · exact ⟨h0, g1, r', g2, by rw [e1, g3]⟩
    · exact absurd (e1.trans g) h0
  · rw [ho u e]; exact ⟨h0, h1, r1, hr1, e1⟩

theorem step_invQ {w w' : W} {a : Act} (i : Inv w) (j : InvQ w) (hp : NoZero w a) (h : step w a = some w') : InvQ w' := by
  cases a with
  | tau t ok =>
    simp only [step] at h
    split at h
    · cases h
    obtain ⟨r, hr, k, tk⟩ := tau_cases i h
    have a3 := (i.th t).pre r hr
    have a9 := (i.th t).q r hr
    cases tk with
    | fin hp ht hh hl hf =>
      rw [hp] at a9
      intro u x hx
      rw [hf] at hx
      by_cases hq : r.qfd ≠ 0
      · rw [if_pos hq] at hx
        unfold closeq at hx
        rw [if_pos (a9 rfl hq)] at hx
        simp only at hx
        split at hx
        · cases hx
        · rename_i hne
          obtain ⟨h0, h1, r1, hr1, e1⟩ := j u x hx
          by_cases e : u = t
          · subst e; rw [hr] at hr1; cases hr1; exact absurd e1 hne
          · rw [k.other u e]; exact ⟨h0, h1, r1, hr1, e1⟩
      · rw [if_neg hq] at hx
        obtain ⟨h0, h1, r1, hr1, e1⟩ := j u x hx
        by_cases e : u = t
        · subst e; rw [hr] at hr1; cases hr1; exact absurd (e1.symm ▸ h0) (by simpa using hq)
        · rw [k.other u e]; exact ⟨h0, h1, r1, hr1, e1⟩
    | sigOff hp hm ht hh hl hf | alt hp ht hh hl hf | setEnd k' hp hk ht hh hl hf | zch hp ht hh hl hf
      | freeNo hp hs ht hh hl hf | free hp hm hs ht hh hl hf | unsetEnd k' hp hk ht hh hl hf | dl hp ht hh hl hf | wfree hp ht hh hl hf
      | workNo hp ho ht hh hl hf | startNo hp ho ht hh hl hf | rel hp ht hh hl hf =>
      refine InvQ.th j k.other hf (fun r1 h1 h2 => ?_)
      rw [hr] at h1; cases h1
      rw [ht]; rw [hp] at h2 a3
      simp_all [before, afterF, afterZ]
    | sigNo hp hm ho ht hh hl hf =>
      refine InvQ.th j k.other hf (fun r1 h1 h2 => ?_)
      rw [hr] at h1; cases h1
      rw [ht]; rw [hp] at h2 a3
      simp_all [before, afterF, afterZ]
    | sig hp hm b ht hh hl hf =>
      refine InvQ.th j k.other hf (fun r1 h1 h2 => ?_)
      rw [hr] at h1; cases h1
      rw [ht]; rw [hp] at h2 a3
      simp_all [before, afterF, afterZ]
    | work hp b ht hh hl hf | start hp b ht hh hl hf =>
      refine InvQ.th j k.other hf (fun r1 h1 h2 => ?_)
      rw [hr] at h1; cases h1
      rw [ht]; rw [hp] at h2 a3
      simp_all [before, afterF, afterZ]
    | set k' n hp hk ht hh hl hf | unset k' n hp hk ht hh hl hf =>
      refine InvQ.th j k.other hf (fun r1 h1 h2 => ?_)
      rw [hr] at h1; cases h1
      rw [ht]; rw [hp] at h2 a3
      simp_all [before, afterF, afterZ]
  | call t ok =>
    simp only [step] at h
    split at h
    · cases h
    rename_i hc
    have hpo : (w.th t).pc = .out := by
      cases e : (w.th t).pc <;> simp_all
    have hn := (i.th t).out.mp hpo
    cases ok with
    | false =>
      cases h
      exact InvQ.th (t := t) j (fun u hu => by simp [note, setTh, hu]) rfl (fun r hr => by rw [hn] at hr; cases hr)
    | true =>
      rw [alloc_rt_ok] at h
      cases h
      exact InvQ.th (t := t) j (fun u hu => by simp [note, setTh, hu, got]) rfl (fun r hr => by rw [hn] at hr; cases hr)
  | finish t =>
    simp only [step] at h
    split at h
    · cases h
    cases hi : inRun w t with
    | none => rw [hi] at h; cases h
    | some r =>
      rw [hi] at h
      dsimp only at h
      split at h
      · cases h
        exact InvQ.th (t := t) j (fun u hu => by simp [goto, setTh, hu]) rfl (fun r hr _ => .inl ⟨by simp [goto, setTh, afterF, afterZ], r, by simp [goto, setTh, hr], rfl⟩)
      · cases h
  | begin t ok =>
    simp only [step] at h
    split at h
    · cases h
    cases hi : inRun w t with
    | none => rw [hi] at h; cases h
    | some r =>
      rw [hi] at h
      obtain ⟨hp, hr⟩ := inRun_some hi
      dsimp only at h
      split at h
      · cases h; exact j.rt _ hr rfl rfl rfl
      · cases ok with
        | false => cases h; exact j
        | true => cases h; exact j.rt _ hr rfl rfl rfl
  | endco t b =>
    simp only [step] at h
    split at h
    · cases h
    cases hi : inRun w t with
    | none => rw [hi] at h; cases h
    | some r =>
      rw [hi] at h
      obtain ⟨hq, hr⟩ := inRun_some hi
      dsimp only at h
      split at h
      · cases h
        exact j.rt _ hr rfl rfl rfl
      · cases h
  | mkchan t ok =>
    simp only [step] at h
    split at h
    · cases h
    cases hi : inRun w t with
    | none => rw [hi] at h; cases h
    | some r =>
      rw [hi] at h
      obtain ⟨hq, hr⟩ := inRun_some hi
      dsimp only at h
      split at h
      · cases h; exact j.rt _ hr rfl rfl rfl
      · cases h; rw [alloc_rest]; exact j
  | relchan t b ok =>
    simp only [step] at h
    split at h
    · cases h
    cases hi : inRun w t with
    | none => rw [hi] at h; cases h
    | some r =>
      rw [hi] at h
      obtain ⟨hq, hr⟩ := inRun_some hi
      dsimp only at h
      split at h
      · split at h
        · cases h; exact j.rt _ hr rfl rfl rfl
        · cases h; rw [free_eq]; exact j
      · cases h
  | grow t ok =>
    simp only [step] at h
    split at h
    · cases h
    cases hi : inRun w t with
    | none => rw [hi] at h; cases h
    | some r =>
      rw [hi] at h
      obtain ⟨hq, hr⟩ := inRun_some hi
      dsimp only at h
      cases ok with
      | false => cases h; exact j
      | true => cases h; rw [freeOpt_rest]; exact j.rt _ hr rfl rfl rfl
  | wait t now q =>
    simp only [step] at h
    split at h
    · cases h
    cases hi : inRun w t with
    | none => rw [hi] at h; cases h
    | some r =>
      rw [hi] at h
      obtain ⟨hq, hr⟩ := inRun_some hi
      dsimp only at h
      split at h
      · rename_i h0
        split at h
        · cases h; exact j
        · rename_i f
          split at h
          · cases h
            have hf0 : f ≠ 0 := fun e => hp (by rw [e])
            intro u x hx
            simp only [setRt, setTh] at hx ⊢
            by_cases ex : x = f
            · subst ex
              simp only [if_true, Option.some.injEq, Owner.rt.injEq] at hx
              subst hx
              simp only [if_true]
              exact ⟨hf0, by rw [hq]; rfl, _, by rw [hr]; rfl, rfl⟩
            · rw [if_neg ex] at hx
              obtain ⟨g0, g1, r1, hr1, e1⟩ := j u x hx
              by_cases e : u = t
              · subst e; rw [hr] at hr1; cases hr1; exact absurd (e1.trans h0) g0
              · simp only [e, if_false]; exact ⟨g0, g1, r1, hr1, e1⟩
          · cases h
      · cases h; exact j.rt _ hr rfl rfl rfl
  | unwait t =>
    simp only [step] at h
    split at h
    · cases h
    cases hi : inRun w t with
    | none => rw [hi] at h; cases h
    | some r =>
      rw [hi] at h
      obtain ⟨hq, hr⟩ := inRun_some hi
      dsimp only at h
      split at h
      · cases h
      · cases h; exact j.rt _ hr rfl rfl rfl
  | rc t now =>
    simp only [step] at h
    split at h
    · cases h
    cases hi : inRun w t with
    | none => rw [hi] at h; cases h
    | some r =>
      rw [hi] at h
      obtain ⟨hq, hr⟩ := inRun_some hi
      dsimp only at h
      split at h
      · rename_i hc
        cases h
        have a9 := (i.th t).q r hr (by rw [hq]; rfl) (by omega)
        intro u x hx
        unfold closeq at hx ⊢
        rw [if_pos a9] at hx ⊢
        simp only [setRt, setTh] at hx ⊢
        split at hx
        · cases hx
        · rename_i ex
          obtain ⟨g0, g1, r1, hr1, e1⟩ := j u x hx
          by_cases e : u = t
          · subst e; rw [hr] at hr1; cases hr1; exact absurd e1 ex
          · simp only [e, if_false]; exact ⟨g0, g1, r1, hr1, e1⟩
      · cases h; exact j
  | drop t =>
    simp only [step] at h
    split at h
    · cases h
    cases hi : inRun w t with
    | none => rw [hi] at h; cases h
    | some r =>
      rw [hi] at h
      obtain ⟨hq, hr⟩ := inRun_some hi
      dsimp only at h
      split at h
      · cases h
      · cases h; rw [free_eq]; exact j.rt _ hr rfl rfl rfl
  | random t =>
    simp only [step] at h
    split at h
    · cases h
    cases hi : inRun w t with
    | none => rw [hi] at h; cases h
    | some r =>
      rw [hi] at h
      obtain ⟨hq, hr⟩ := inRun_some hi
      dsimp only at h
      split at h
      · cases h; exact j
      · cases h; exact j.rt _ hr rfl rfl rfl
  | submit t b =>
    simp only [step] at h
    split at h
    · cases h
    cases hi : inRun w t with
    | none => rw [hi] at h; cases h
    | some r =>
      rw [hi] at h
      obtain ⟨hq, hr⟩ := inRun_some hi
      dsimp only at h
      split at h
      · cases h
        exact j.rt _ hr rfl rfl rfl
      · cases h
  | done t b =>
    simp only [step] at h
    split at h
    · cases h
    cases hr : (w.th t).rt with
    | none => rw [hr] at h; cases h
    | some r =>
      rw [hr] at h
      dsimp only at h
      split at h
      · cases h
        have e : jobDone w r b = { w with fault := (jobDone w r b).fault } := by
          unfold jobDone
          rw [use_heap (use w r.blk) b, use_heap w r.blk]
        rw [e]
        exact j.rt _ hr rfl rfl rfl
      · cases h
  | watch t n =>
    simp only [step] at h
    split at h
    · cases h
    cases hi : inRun w t with
    | none => rw [hi] at h; cases h
    | some r =>
      rw [hi] at h
      obtain ⟨hq, hr⟩ := inRun_some hi
      dsimp only at h
      cases h; exact j.rt _ hr rfl rfl rfl
  | signal t n =>
    simp only [step] at h
    split at h
    · cases h
    cases h
    intro u x hx
    rw [(deliver_same w t n).2.2.2.1] at hx
    obtain ⟨g0, g1, r1, hr1, e1⟩ := j u x hx
    rcases deliver_th w t n u with g | ⟨r2, q, hr2, g⟩
    · rw [g]; exact ⟨g0, g1, r1, hr1, e1⟩
    · rw [g]; rw [hr1] at hr2; cases hr2; exact ⟨g0, g1, _, rfl, e1⟩
  | wsignal t n =>
    simp only [step] at h
    split at h
    · cases h
    split at h
    · cases h
    · split at h
      · cases h
      · cases h
        unfold deliverWorker
        split <;> exact j
  | sigaction n d =>
    simp only [step] at h
    split at h
    · cases h
    · cases h; exact j
  | sigaltstack t =>
    simp only [step] at h
    split at h
    · cases h
    · cases h
      exact InvQ.th (t := t) j (fun u hu => by simp [setTh, hu, alloc]) rfl
        (fun r hr h1 => .inl ⟨by simpa [setTh, alloc] using h1, r, by simpa [setTh, alloc] using hr, rfl⟩)
  | «open» f =>
    simp only [step] at h
    split at h
    · cases h
    split at h
    · cases h
      intro u x hx
      simp only at hx
      split at hx
      · cases hx
      · exact j u x hx
    · cases h
  | close f =>
    simp only [step] at h
    split at h
    · cases h
    split at h
    · cases h
      intro u x hx
      simp only at hx
      split at hx
      · cases hx
      · exact j u x hx
    · cases h

theorem reach_invQ {p : W → Act → Prop} (hp : ∀ w a, p w a → NoZero w a) {w : W} (r : Reach p w) : InvQ w := by
  induction r with
  | init fds =>
    intro t f hf
    simp only [init] at hf
    split at hf <;> cases hf
  | step r h0 h ih => exact step_invQ (reach_inv r) ih (hp _ _ h0) h

end Neco.Run
