import Verif.Proof.Run

/-! # The life of a runtime: the invariant is kept -/

namespace Neco.Run

theorem got_next (w : W) (t k : Nat) : (got w t k).next = w.next + k := rfl
theorem got_heap (w : W) (t k x : Nat) : (got w t k).heap x = if w.next ≤ x ∧ x < w.next + k then some (.rt t) else w.heap x := rfl

theorem Inv.live {w : W} (i : Inv w) {t : Nat} {b : Nat} (h : b ∈ thBlocks (w.th t)) : w.heap b = some (.rt t) := ((i.th t).own b).mpr h

theorem Inv.lt {w : W} (i : Inv w) {t : Nat} {b : Nat} (h : b ∈ thBlocks (w.th t)) : b < w.next := by
  rcases Nat.lt_or_ge b w.next with g | g
  · exact g
  · have := i.fresh b g; rw [i.live h] at this; cases this

/-- the invariant of a thread with a runtime, in terms of the runtime -/
theorem InvT.mk' {heap : Nat → Option Owner} {dls : Nat} {fds : Nat → Option Owner} {t : Nat} {h : Th} {r : Rtm}
    (hr : h.rt = some r) (out : h.pc ≠ .out)
    (own : ∀ b, heap b = some (.rt t) ↔ b ∈ blocks h.pc r) (nd : (blocks h.pc r).Nodup)
    (main : r.mainthread = decide (t = 0)) (side : t ≠ 0 → r.sigstack = none)
    (pre : before h.pc = true → r.cos = [] ∧ r.pool = [] ∧ r.zchans = [] ∧ r.zchanpool = none ∧ r.qfd = 0 ∧ r.jobs = [] ∧ r.libbsd = false)
    (wk : before h.pc = true → h.pc ≠ .start → r.worker = none) (sg : h.pc = .sig → r.sigstack = none) (fin : h.pc = .fin → r.cos = [])
    (post : afterF h.pc = true → r.cos = [] ∧ r.pool = [])
    (dl : dls = if r.libbsd = true ∧ afterD h.pc = false then 1 else 0)
    (q : afterF h.pc = false → r.qfd ≠ 0 → fds r.qfd = some (.rt t)) : InvT heap dls fds t h := by
  constructor
  · simp [hr, out]
  · simpa [thBlocks, hr] using own
  · simpa [thBlocks, hr] using nd
  all_goals (try (intro r' hr'; rw [hr] at hr'; cases hr'; assumption))
  · intro h0; rw [hr] at h0; cases h0

theorem setTh_same (w : W) (t : Nat) (f : Th → Th) : (setTh w t f).th t = f (w.th t) := by simp [setTh]
theorem setTh_other (w : W) (t : Nat) (f : Th → Th) (u : Nat) (h : u ≠ t) : (setTh w t f).th u = w.th u := by simp [setTh, h]

theorem rtm_inv {w : W} (i : Inv w) {t : Nat} {r : Rtm} (hr : (w.th t).rt = some r) :
    (w.th t).pc ≠ .out ∧ (∀ b, w.heap b = some (.rt t) ↔ b ∈ blocks (w.th t).pc r) ∧ (blocks (w.th t).pc r).Nodup := by
  have a := i.th t
  refine ⟨fun e => ?_, fun b => ?_, ?_⟩
  · rw [a.out.mp e] at hr; cases hr
  · rw [a.own b, thBlocks, hr]
  · have := a.nd; rwa [thBlocks, hr] at this

set_option hygiene false in
macro "fields" : tactic => `(tactic| (
  have a := i.th t
  have a1 := a.main r hr
  have a2 := a.side r hr
  have a3 := a.pre r hr
  have a4 := a.wk r hr
  have a5 := a.sg r hr
  have a6 := a.fin r hr
  have a7 := a.post r hr
  have a8 := a.dl r hr
  have a9 := a.q r hr
  obtain ⟨b1, b2, b3⟩ := rtm_inv i hr))

/-- freeing the blocks of a part of a list -/
theorem free_mid {heap heap' : Nat → Option Owner} {o : Owner} {A B C D E : List Nat} (own : ∀ b, heap b = some o ↔ b ∈ D) (nd : D.Nodup)
    (hD : D = A ++ (B ++ C)) (hE : E = A ++ C) (hh : ∀ x, heap' x = if x ∈ B then none else heap x) :
    (∀ b, heap' b = some o ↔ b ∈ E) ∧ E.Nodup := by
  subst hD hE
  rw [List.nodup_append, List.nodup_append] at nd
  obtain ⟨n1, ⟨n2, n3, n4⟩, n5⟩ := nd
  refine ⟨fun b => ?_, List.nodup_append.mpr ⟨n1, n3, fun x hx y hy => n5 x hx y (by simp [hy])⟩⟩
  rw [hh b]
  by_cases hb : b ∈ B
  · rw [if_pos hb]
    refine ⟨fun e => (by cases e), fun e => ?_⟩
    rcases List.mem_append.mp e with e | e
    · exact absurd rfl (n5 b e b (by simp [hb]))
    · exact absurd rfl (n4 b hb b e)
  · rw [if_neg hb, own b]
    simp [hb]

set_option hygiene false in
macro "frame" : tactic => `(tactic| (
  all_goals first
    | (intro u hu; simp only [goto, setRt, setTh, failed, note, hu, if_false]; done)
    | (intro u hu; simp [goto, setRt, setTh, failed, note, hu, got]; done)
    | (intro u hu b; simp only [goto, setRt, setTh, failed, note, got]; done)
    | (intro u hu b; simp only [goto, setRt, setTh, failed, note, got]; grind)
    | (intro u hu b hb; simpa [goto, setRt, setTh, failed, note, got] using hb)
    | (intro x hx; simp only [goto, setRt, setTh, failed, note, got] at hx ⊢; grind [i.fresh])))

set_option hygiene false in
macro "mine" r:term : tactic => `(tactic| (
  refine InvT.mk' (r := $r) ?_ ?_ ?_ ?_ ?_ ?_ ?_ ?_ ?_ ?_ ?_ ?_ ?_
  all_goals (try simp only [goto, setRt, setTh, failed, note, got, if_true, hr, hp, Option.map_some])
  all_goals simp only [blocks, sigB, zB, wB, before, afterS, afterZ, afterF, afterD, Option.toList] at *
  all_goals first
    | (intro b; grind)
    | grind))

theorem tau_sig {w w' : W} {t : Nat} {ok : Nat → Bool} {r : Rtm} (i : Inv w) (hr : (w.th t).rt = some r)
    (hp : (w.th t).pc = .sig) (h : tau w t ok = some w') : Inv w' := by
  fields
  have lt : ∀ b ∈ blocks (w.th t).pc r, b < w.next := fun b hb => i.lt (t := t) (by rw [thBlocks, hr]; exact hb)
  rw [hp] at a3 a4 a5 a6 a7 a8 a9 b1 b2 b3 lt
  simp only [tau, hr, hp] at h
  by_cases hm : r.mainthread = false
  · rw [if_pos hm] at h
    cases h
    refine Inv.of t i ?_ ?_ ?_ ?_ ?_ ?_
    case refine_2 => mine r
    frame
  · rw [if_neg hm] at h
    cases ho : ok 0 with
    | false =>
      rw [ho, alloc_rt_no] at h
      cases h
      refine Inv.of t i ?_ ?_ ?_ ?_ ?_ ?_
      case refine_2 => mine r
      frame
    | true =>
      rw [ho, alloc_rt_ok] at h
      cases h
      refine Inv.of t i ?_ ?_ ?_ ?_ ?_ ?_
      case refine_2 => mine { r with sigstack := some w.next }
      frame

theorem tau_alt {w w' : W} {t : Nat} {ok : Nat → Bool} {r : Rtm} (i : Inv w) (hr : (w.th t).rt = some r)
    (hp : (w.th t).pc = .alt) (h : tau w t ok = some w') : Inv w' := by
  fields
  have lt : ∀ b ∈ blocks (w.th t).pc r, b < w.next := fun b hb => i.lt (t := t) (by rw [thBlocks, hr]; exact hb)
  rw [hp] at a3 a4 a5 a6 a7 a8 a9 b1 b2 b3 lt
  simp only [tau, hr, hp] at h
  cases h
  refine Inv.of t i ?_ ?_ ?_ ?_ ?_ ?_
  case refine_2 => mine r
  frame

theorem tau_set {w w' : W} {t : Nat} {ok : Nat → Bool} {r : Rtm} {k : Nat} (i : Inv w) (hr : (w.th t).rt = some r)
    (hp : (w.th t).pc = .set k) (h : tau w t ok = some w') : Inv w' := by
  fields
  have lt : ∀ b ∈ blocks (w.th t).pc r, b < w.next := fun b hb => i.lt (t := t) (by rw [thBlocks, hr]; exact hb)
  rw [hp] at a3 a4 a5 a6 a7 a8 a9 b1 b2 b3 lt
  simp only [tau, hr, hp] at h
  cases hk : sigs[k]? with
  | none =>
    rw [hk] at h
    cases h
    refine Inv.of t i ?_ ?_ ?_ ?_ ?_ ?_
    case refine_2 => mine r
    frame
  | some n =>
    rw [hk] at h
    cases h
    refine Inv.of t i ?_ ?_ ?_ ?_ ?_ ?_
    case refine_2 => mine { r with sigold := fun x => if x = n then w.handler n else r.sigold x }
    frame

theorem tau_work {w w' : W} {t : Nat} {ok : Nat → Bool} {r : Rtm} (i : Inv w) (hr : (w.th t).rt = some r)
    (hp : (w.th t).pc = .work) (h : tau w t ok = some w') : Inv w' := by
  fields
  have lt : ∀ b ∈ blocks (w.th t).pc r, b < w.next := fun b hb => i.lt (t := t) (by rw [thBlocks, hr]; exact hb)
  rw [hp] at a3 a4 a5 a6 a7 a8 a9 b1 b2 b3 lt
  simp only [tau, hr, hp] at h
  rcases workerNew_spec w t ok i.fresh with ⟨k, e⟩ | ⟨k, K, e, pm⟩
  · rw [e] at h
    cases h
    refine Inv.of t i ?_ ?_ ?_ ?_ ?_ ?_
    case refine_2 => mine r
    frame
  · rw [e] at h
    have m : ∀ x, x ∈ K.blks ↔ w.next ≤ x ∧ x < w.next + k := fun x => by rw [pm.mem_iff, List.mem_range'_1]
    have n : K.blks.Nodup := pm.nodup_iff.mpr (List.nodup_range' (step := 1))
    cases h
    refine Inv.of t i ?_ ?_ ?_ ?_ ?_ ?_
    case refine_2 => mine { r with worker := some K }
    frame

theorem tau_start {w w' : W} {t : Nat} {ok : Nat → Bool} {r : Rtm} (i : Inv w) (hr : (w.th t).rt = some r)
    (hp : (w.th t).pc = .start) (h : tau w t ok = some w') : Inv w' := by
  fields
  have lt : ∀ b ∈ blocks (w.th t).pc r, b < w.next := fun b hb => i.lt (t := t) (by rw [thBlocks, hr]; exact hb)
  rw [hp] at a3 a4 a5 a6 a7 a8 a9 b1 b2 b3 lt
  simp only [tau, hr, hp] at h
  cases ho : ok 0 with
  | false =>
    rw [ho, alloc_rt_no] at h
    cases h
    refine Inv.of t i ?_ ?_ ?_ ?_ ?_ ?_
    case refine_2 => mine r
    frame
  | true =>
    rw [ho, alloc_rt_ok] at h
    dsimp only at h
    by_cases h1 : ok 1 = true
    · rw [if_pos h1] at h
      cases h
      refine Inv.of t i ?_ ?_ ?_ ?_ ?_ ?_
      case refine_2 => mine { r with cos := [w.next] }
      frame
    · rw [if_neg h1] at h
      have e : free (got w t 1) w.next = { w with next := w.next + 1 } := by
        have := freeAll_got w t 1 [w.next] i.fresh (by simp)
        simpa [freeAll] using this
      rw [e] at h
      cases h
      refine Inv.of t i ?_ ?_ ?_ ?_ ?_ ?_
      case refine_2 => mine r
      frame

theorem tau_fin {w w' : W} {t : Nat} {ok : Nat → Bool} {r : Rtm} (i : Inv w) (hr : (w.th t).rt = some r)
    (hp : (w.th t).pc = .fin) (h : tau w t ok = some w') : Inv w' := by
  fields
  rw [hp] at a3 a4 a5 a6 a7 a8 a9 b1 b2 b3
  simp only [tau, hr, hp] at h
  have hq9 : r.qfd ≠ 0 → w.fds r.qfd = some (.rt t) := a9 rfl
  have hc : r.cos = [] := a6 rfl
  have e : freeAll (if r.qfd ≠ 0 then closeq w t r.qfd else w) r.pool =
      { w with heap := fun x => if x ∈ r.pool then none else w.heap x
               fds := fun x => if r.qfd ≠ 0 ∧ x = r.qfd then none else w.fds x } := by
    have hl : ∀ b ∈ r.pool, w.heap b ≠ none := by
      intro b hb
      rw [(b2 b).mpr (by simp [blocks, hb])]; simp
    have hn : r.pool.Nodup := by
      simp only [blocks] at b3
      grind
    by_cases hq : r.qfd = 0
    · simp only [hq, ne_eq, not_true_eq_false, if_false, false_and]
      rw [freeAll_eq _ _ hl hn]
    · simp only [hq, ne_eq, not_false_eq_true, if_true, closeq, hq9 hq, true_and]
      exact freeAll_eq r.pool { w with fds := fun x => if x = r.qfd then none else w.fds x } hl hn
  rw [e] at h
  cases h
  have hl : ∀ b ∈ r.pool, w.heap b = some (.rt t) := fun b hb => (b2 b).mpr (by simp [blocks, hb])
  have fm := free_mid (heap' := fun x => if x ∈ r.pool then none else w.heap x) (A := r.blk :: (sigB .fin r ++ (zB .fin r ++ wB .fin r)))
    (B := r.pool) (C := []) (E := blocks .zch { r with pool := [] }) b2 b3 (by simp [blocks, hc])
    (by simp [blocks, sigB, zB, wB, afterS, afterZ, hc]) (fun _ => rfl)
  refine Inv.of t i ?_ ?_ ?_ ?_ ?_ ?_
  case refine_2 =>
    refine InvT.mk' (r := { r with pool := [] }) ?_ ?_ ?_ ?_ ?_ ?_ ?_ ?_ ?_ ?_ ?_ ?_ ?_
    case refine_3 => simpa [setTh, setRt] using fm.1
    case refine_4 => simpa [setTh, setRt] using fm.2
    all_goals (try simp only [goto, setRt, setTh, failed, note, got, if_true, hr, hp, Option.map_some])
    all_goals simp only [before, afterS, afterZ, afterF, afterD, Option.toList] at *
    all_goals grind
  frame

theorem tau_zch {w w' : W} {t : Nat} {ok : Nat → Bool} {r : Rtm} (i : Inv w) (hr : (w.th t).rt = some r)
    (hp : (w.th t).pc = .zch) (h : tau w t ok = some w') : Inv w' := by
  fields
  rw [hp] at a3 a4 a5 a6 a7 a8 a9 b1 b2 b3
  simp only [tau, hr, hp] at h
  have e : freeOpt (freeAll w r.zchans) r.zchanpool =
      { w with heap := fun x => if x ∈ r.zchanpool.toList ++ r.zchans then none else w.heap x } := by
    rw [freeOpt_eq, ← freeAll_append]
    have nd : (r.zchans ++ r.zchanpool.toList).Nodup := by
      have : (r.zchanpool.toList ++ r.zchans).Nodup := by
        simp only [blocks, zB, afterZ] at b3
        rw [List.nodup_cons, List.nodup_append, List.nodup_append] at b3
        simpa using b3.2.2.1.1
      exact List.perm_append_comm.nodup_iff.mp this
    rw [freeAll_eq _ _ ?_ nd]
    · congr 1
      funext x
      simp only [List.mem_append, or_comm]
    · intro b hb
      rw [(b2 b).mpr ?_]
      · simp
      · simp only [blocks, zB, afterZ, List.mem_cons, List.mem_append] at hb ⊢
        simp only [Bool.false_eq_true, if_false, List.mem_append]
        grind
  rw [e] at h
  cases h
  have hl : ∀ b ∈ r.zchanpool.toList ++ r.zchans, w.heap b = some (.rt t) := fun b hb =>
    (b2 b).mpr (by
      have : b ∈ zB .zch r := by simpa [zB, afterZ] using hb
      simp [blocks, this])
  have fm := free_mid (heap' := fun x => if x ∈ r.zchanpool.toList ++ r.zchans then none else w.heap x) (A := r.blk :: sigB .zch r)
    (B := zB .zch r) (C := wB .zch r ++ (r.cos ++ r.pool)) (E := blocks .free r) b2 b3 (by simp [blocks])
    (by simp [blocks, sigB, zB, wB, afterS, afterZ]) (fun _ => by simp [zB, afterZ])
  refine Inv.of t i ?_ ?_ ?_ ?_ ?_ ?_
  case refine_2 =>
    refine InvT.mk' (r := r) ?_ ?_ ?_ ?_ ?_ ?_ ?_ ?_ ?_ ?_ ?_ ?_ ?_
    case refine_3 => simpa [setTh, setRt, goto] using fm.1
    case refine_4 => simpa [setTh, setRt, goto] using fm.2
    all_goals (try simp only [goto, setRt, setTh, failed, note, got, if_true, hr, hp, Option.map_some])
    all_goals simp only [before, afterS, afterZ, afterF, afterD, Option.toList] at *
    all_goals grind
  frame

theorem tau_free {w w' : W} {t : Nat} {ok : Nat → Bool} {r : Rtm} (i : Inv w) (hr : (w.th t).rt = some r)
    (hp : (w.th t).pc = .free) (h : tau w t ok = some w') : Inv w' := by
  fields
  rw [hp] at a3 a4 a5 a6 a7 a8 a9 b1 b2 b3
  simp only [tau, hr, hp] at h
  by_cases hm : r.mainthread = false
  · rw [if_pos hm] at h
    have hs : r.sigstack = none := by
      apply a2; intro e; rw [hm] at a1; simp [e] at a1
    cases h
    refine Inv.of t i ?_ ?_ ?_ ?_ ?_ ?_
    case refine_2 => mine r
    frame
  · rw [if_neg hm] at h
    cases hs : r.sigstack with
    | none =>
      rw [hs] at h
      cases h
      refine Inv.of t i ?_ ?_ ?_ ?_ ?_ ?_
      case refine_2 => mine r
      frame
    | some b =>
      rw [hs] at h
      dsimp only at h
      have hl : w.heap b = some (.rt t) := (b2 b).mpr (by simp [blocks, sigB, afterS, hs])
      have e : free w b = { w with heap := fun x => if x = b then none else w.heap x } := by
        unfold free
        rw [hl]
        simp
      rw [e] at h
      cases h
      refine Inv.of t i ?_ ?_ ?_ ?_ ?_ ?_
      case refine_2 => mine r
      frame

theorem tau_unset {w w' : W} {t : Nat} {ok : Nat → Bool} {r : Rtm} {k : Nat} (i : Inv w) (hr : (w.th t).rt = some r)
    (hp : (w.th t).pc = .unset k) (h : tau w t ok = some w') : Inv w' := by
  fields
  have lt : ∀ b ∈ blocks (w.th t).pc r, b < w.next := fun b hb => i.lt (t := t) (by rw [thBlocks, hr]; exact hb)
  rw [hp] at a3 a4 a5 a6 a7 a8 a9 b1 b2 b3 lt
  simp only [tau, hr, hp] at h
  cases hk : sigs[k]? with
  | none =>
    rw [hk] at h
    cases h
    refine Inv.of t i ?_ ?_ ?_ ?_ ?_ ?_
    case refine_2 => mine r
    frame
  | some n =>
    rw [hk] at h
    cases h
    refine Inv.of t i ?_ ?_ ?_ ?_ ?_ ?_
    case refine_2 => mine r
    frame

theorem tau_dl {w w' : W} {t : Nat} {ok : Nat → Bool} {r : Rtm} (i : Inv w) (hr : (w.th t).rt = some r)
    (hp : (w.th t).pc = .dl) (h : tau w t ok = some w') : Inv w' := by
  fields
  rw [hp] at a3 a4 a5 a6 a7 a8 a9 b1 b2 b3
  simp only [tau, hr, hp] at h
  cases hl : r.libbsd with
  | true =>
    rw [hl] at h
    cases h
    refine Inv.of t i ?_ ?_ ?_ ?_ ?_ ?_
    case refine_2 => mine r
    frame
  | false =>
    rw [hl] at h
    cases h
    refine Inv.of t i ?_ ?_ ?_ ?_ ?_ ?_
    case refine_2 => mine r
    frame

theorem use_heap (w : W) (b : Nat) : use w b = { w with fault := (use w b).fault } := by
  unfold use
  split <;> rfl

theorem jobsDone_eq : ∀ (l : List Nat) (w : W) (r : Rtm), jobsDone w r l = { w with fault := (jobsDone w r l).fault }
  | [], _, _ => rfl
  | b :: q, w, r => by
    have e := jobsDone_eq q (jobDone w r b) r
    simp only [jobsDone]
    rw [e]
    unfold jobDone
    rw [use_heap (use w r.blk) b, use_heap w r.blk]

theorem tau_wfree {w w' : W} {t : Nat} {ok : Nat → Bool} {r : Rtm} (i : Inv w) (hr : (w.th t).rt = some r)
    (hp : (w.th t).pc = .wfree) (h : tau w t ok = some w') : Inv w' := by
  fields
  rw [hp] at a3 a4 a5 a6 a7 a8 a9 b1 b2 b3
  simp only [tau, hr, hp] at h
  rw [jobsDone_eq] at h
  generalize (jobsDone w r r.jobs).fault = ft at h
  have e : workerFree { w with fault := ft } r.worker =
      { w with fault := ft, heap := fun x => if x ∈ wB .wfree r then none else w.heap x } := by
    cases hk : r.worker with
    | none => simp [workerFree, wB, hk]
    | some k =>
      rw [workerFree_eq, freeAll_eq]
      · simp [wB, hk]
      · intro b hb
        show w.heap b ≠ none
        rw [(b2 b).mpr (by simp [blocks, wB, hk, hb])]; simp
      · simp only [blocks, wB, hk] at b3
        rw [List.nodup_cons, List.nodup_append, List.nodup_append, List.nodup_append] at b3
        simpa using b3.2.2.1.2.1.1
  rw [e] at h
  cases h
  have hl : ∀ b ∈ wB .wfree r, w.heap b = some (.rt t) := fun b hb => (b2 b).mpr (by simp [blocks, hb])
  have fm := free_mid (heap' := fun x => if x ∈ wB .wfree r then none else w.heap x) (A := r.blk :: (sigB .wfree r ++ zB .wfree r))
    (B := wB .wfree r) (C := r.cos ++ r.pool) (E := blocks .rel { r with jobs := [] }) b2 b3 (by simp [blocks])
    (by simp [blocks, sigB, zB, wB, afterS, afterZ]) (fun _ => rfl)
  refine Inv.of t i ?_ ?_ ?_ ?_ ?_ ?_
  case refine_2 =>
    refine InvT.mk' (r := { r with jobs := [] }) ?_ ?_ ?_ ?_ ?_ ?_ ?_ ?_ ?_ ?_ ?_ ?_ ?_
    case refine_3 => simpa [setTh, setRt, goto] using fm.1
    case refine_4 => simpa [setTh, setRt, goto] using fm.2
    all_goals (try simp only [goto, setRt, setTh, failed, note, got, if_true, hr, hp, Option.map_some])
    all_goals simp only [before, afterS, afterZ, afterF, afterD, Option.toList] at *
    all_goals grind
  frame

theorem tau_rel {w w' : W} {t : Nat} {ok : Nat → Bool} {r : Rtm} (i : Inv w) (hr : (w.th t).rt = some r)
    (hp : (w.th t).pc = .rel) (h : tau w t ok = some w') : Inv w' := by
  fields
  rw [hp] at a3 a4 a5 a6 a7 a8 a9 b1 b2 b3
  simp only [tau, hr, hp] at h
  have hc := a7 rfl
  have bl : blocks .rel r = [r.blk] := by simp [blocks, sigB, zB, wB, afterS, afterZ, hc]
  rw [bl] at b2
  have e : free w r.blk = { w with heap := fun x => if x = r.blk then none else w.heap x } := by
    unfold free
    rw [(b2 r.blk).mpr (by simp)]
    simp
  rw [e] at h
  cases h
  refine Inv.of t i ?_ ?_ ?_ ?_ ?_ ?_
  case refine_2 =>
    constructor
    all_goals simp only [note, setTh, if_true, thBlocks, afterD] at *
    all_goals grind
  frame

/-- the pieces of `run` keep the invariant -/
theorem tau_inv {w w' : W} {t : Nat} {ok : Nat → Bool} (i : Inv w) (h : tau w t ok = some w') : Inv w' := by
  cases hr : (w.th t).rt with
  | none => simp [tau, hr] at h
  | some r =>
    cases hp : (w.th t).pc with
    | out => simp [tau, hr, hp] at h
    | run => simp [tau, hr, hp] at h
    | sig => exact tau_sig i hr hp h
    | alt => exact tau_alt i hr hp h
    | set k => exact tau_set i hr hp h
    | work => exact tau_work i hr hp h
    | start => exact tau_start i hr hp h
    | fin => exact tau_fin i hr hp h
    | zch => exact tau_zch i hr hp h
    | free => exact tau_free i hr hp h
    | unset k => exact tau_unset i hr hp h
    | dl => exact tau_dl i hr hp h
    | wfree => exact tau_wfree i hr hp h
    | rel => exact tau_rel i hr hp h

end Neco.Run
