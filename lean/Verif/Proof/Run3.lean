import Verif.Proof.Run2

/-! # The life of a runtime: the invariant holds in all states -/

namespace Neco.Run

theorem inRun_some {w : W} {t : Nat} {r : Rtm} (h : inRun w t = some r) : (w.th t).pc = .run ∧ (w.th t).rt = some r := by
  unfold inRun at h
  split at h
  · exact ⟨by assumption, h⟩
  · cases h

/-- `deliver` changes nothing but a counter of signals -/
theorem deliver_same (w : W) (t n : Nat) : (deliver w t n).heap = w.heap ∧ (deliver w t n).next = w.next ∧ (deliver w t n).dls = w.dls ∧
    (deliver w t n).fds = w.fds ∧ (deliver w t n).handler = w.handler ∧ (deliver w t n).log = w.log ∧ (deliver w t n).nextId = w.nextId ∧
    (deliver w t n).fault = w.fault ∧ (deliver w t n).nthreads = w.nthreads := by
  unfold deliver sighandler onStack setRt setTh
  repeat' split
  all_goals simp

theorem deliver_th (w : W) (t n u : Nat) : (deliver w t n).th u = w.th u ∨
    ∃ r q, (w.th u).rt = some r ∧ (deliver w t n).th u = { w.th u with rt := some { r with sigqueue := q } } := by
  have on : (onStack w (w.th t)).th = w.th := by unfold onStack; (repeat' split) <;> rfl
  unfold deliver
  split
  · left; rfl
  · left; rfl
  · left; rfl
  · left; rw [on]
  · unfold sighandler
    rw [on]
    split
    · left; simp [on]
    · rename_i r hr
      (repeat' split)
      · left; simp [on]
      · left; simp [on]
      · by_cases e : u = t
        · subst e
          right
          exact ⟨r, fun x => if x = n then r.sigqueue x + 1 else r.sigqueue x, hr, by simp [setRt, setTh, on, hr]⟩
        · left; simp [setRt, setTh, on, e]
      · left; simp [on]
      · left; simp [on]

theorem InvT.queue {heap : Nat → Option Owner} {dls : Nat} {fds : Nat → Option Owner} {t : Nat} {h : Th} (i : InvT heap dls fds t h)
    {r : Rtm} (q : Nat → Nat) (hr : h.rt = some r) : InvT heap dls fds t { h with rt := some { r with sigqueue := q } } := by
  have a := i
  refine InvT.mk' (r := { r with sigqueue := q }) rfl ?_ ?_ ?_ (a.main r hr) (a.side r hr) (a.pre r hr) (a.wk r hr) (a.sg r hr) (a.fin r hr) (a.post r hr)
    (a.dl r hr) (a.q r hr)
  · intro e; rw [a.out.mp e] at hr; cases hr
  · intro b; rw [a.own b, thBlocks, hr]; rfl
  · have := a.nd; rw [thBlocks, hr] at this; exact this

set_option hygiene false in
macro "frame'" : tactic => `(tactic| (
  all_goals first
    | (intro u hu; simp only [goto, setRt, setTh, failed, note, hu, if_false]; done)
    | (intro u hu; simp [goto, setRt, setTh, failed, note, hu, got]; done)
    | (intro u hu b; simp only [goto, setRt, setTh, failed, note, got]; done)
    | (intro u hu b; simp only [goto, setRt, setTh, failed, note, got]; grind)
    | (intro u hu b hb; simpa [goto, setRt, setTh, failed, note, got] using hb)
    | (intro u hu b hb; simp only [goto, setRt, setTh, failed, note, got]; grind)
    | (intro x hx; simp only [goto, setRt, setTh, failed, note, got] at hx ⊢; grind [i.fresh])))

/-- a step of a thread whose coroutines are running -/
theorem Inv.run {w w' : W} {t : Nat} {r : Rtm} (i : Inv w) (hi : inRun w t = some r) (r' : Rtm)
    (hth : ∀ u, w'.th u = if u = t then { w.th t with rt := some r' } else w.th u)
    (fr : ∀ x, w'.next ≤ x → w'.heap x = none)
    (own : ∀ b, w'.heap b = some (.rt t) ↔ b ∈ blocks .run r') (nd : (blocks .run r').Nodup)
    (main : r'.mainthread = r.mainthread) (ss : r'.sigstack = r.sigstack) (dl : w'.dls t = if r'.libbsd = true then 1 else 0)
    (q : r'.qfd ≠ 0 → w'.fds r'.qfd = some (.rt t))
    (hd : ∀ u, u ≠ t → w'.dls u = w.dls u)
    (hh : ∀ u, u ≠ t → ∀ b, w'.heap b = some (.rt u) ↔ w.heap b = some (.rt u))
    (hf : ∀ u, u ≠ t → ∀ f, w.fds f = some (.rt u) → w'.fds f = some (.rt u)) : Inv w' := by
  obtain ⟨hp, hr⟩ := inRun_some hi
  have a := i.th t
  refine Inv.of t i fr ?_ (fun u hu => by rw [hth u, if_neg hu]) hd hh hf
  rw [hth t, if_pos rfl]
  refine InvT.mk' (r := r') rfl ?_ ?_ ?_ ?_ ?_ ?_ ?_ ?_ ?_ ?_ ?_ ?_ <;> (try dsimp only) <;> (try rw [hp])
  · simp
  · exact own
  · exact nd
  · rw [main]; exact a.main r hr
  · rw [ss]; exact a.side r hr
  · simp [before]
  · simp [before]
  · simp
  · simp
  · simp [afterF, afterZ]
  · simp [dl, afterD]
  · exact fun _ => q

/-- the step changes only fields of the runtime -/
theorem Inv.run0 {w w' : W} {t : Nat} {r : Rtm} (i : Inv w) (hi : inRun w t = some r) (f : Rtm → Rtm) (e : w' = setRt w t f)
    (pm : (blocks .run (f r)).Perm (blocks .run r))
    (main : (f r).mainthread = r.mainthread) (ss : (f r).sigstack = r.sigstack) (dl : (f r).libbsd = r.libbsd)
    (q : (f r).qfd = r.qfd) : Inv w' := by
  obtain ⟨hp, hr⟩ := inRun_some hi
  have a := i.th t
  obtain ⟨b1, b2, b3⟩ := rtm_inv i hr
  rw [hp] at b1 b2 b3
  subst e
  refine Inv.run i hi (f r) (fun u => ?_) i.fresh (fun b => ?_) (pm.nodup_iff.mpr b3) main ss ?_ ?_ (fun _ _ => rfl) (fun _ _ _ => Iff.rfl)
    (fun _ _ _ h => h)
  · by_cases e : u = t
    · subst e; simp [setRt, setTh, hr]
    · simp [setRt, setTh, e]
  · rw [pm.mem_iff]; exact b2 b
  · have := a.dl r hr; rw [hp] at this; simpa [setRt, setTh, dl, afterD] using this
  · rw [q]; have := a.q r hr; rw [hp] at this; exact this rfl

theorem blocks_run (r : Rtm) : blocks .run r =
    r.blk :: (r.sigstack.toList ++ ((r.zchanpool.toList ++ r.zchans) ++ ((match r.worker with | none => [] | some k => k.blks) ++ (r.cos ++ r.pool)))) := by
  simp [blocks, sigB, zB, wB, afterS, afterZ]
  cases r.worker <;> rfl

/-- the runtime gets one more block -/
theorem Inv.run1 {w w' : W} {t : Nat} {r : Rtm} (i : Inv w) (hi : inRun w t = some r) (b : Nat) (f : Rtm → Rtm)
    (hth : ∀ u, w'.th u = (setRt w t f).th u) (hd : w'.dls = w.dls) (hq : w'.fds = w.fds)
    (hb : ∀ u, w.heap b ≠ some (.rt u)) (hb' : w.heap b ≠ none ∨ w.next ≤ b) (nx : w.next ≤ w'.next) (nb : b < w'.next)
    (hh : ∀ x, w'.heap x = if x = b then some (.rt t) else w.heap x)
    (pm : (blocks .run (f r)).Perm (b :: blocks .run r))
    (main : (f r).mainthread = r.mainthread) (ss : (f r).sigstack = r.sigstack) (dl : (f r).libbsd = r.libbsd)
    (q : (f r).qfd = r.qfd) : Inv w' := by
  obtain ⟨hp, hr⟩ := inRun_some hi
  have a := i.th t
  obtain ⟨b1, b2, b3⟩ := rtm_inv i hr
  rw [hp] at b1 b2 b3
  have nb' : b ∉ blocks .run r := fun hc => hb t ((b2 b).mpr hc)
  refine Inv.run i hi (f r) (fun u => ?_) (fun x hx => ?_) (fun c => ?_) (pm.nodup_iff.mpr (List.nodup_cons.mpr ⟨nb', b3⟩)) main ss ?_ ?_
    (fun _ _ => by rw [hd]) (fun u hu c => ?_) (fun _ _ _ h => by rw [hq]; exact h)
  · rw [hth u]
    by_cases e : u = t
    · subst e; simp [setRt, setTh, hr]
    · simp [setRt, setTh, e]
  · rw [hh x, if_neg (by omega)]; exact i.fresh x (by omega)
  · rw [hh c, pm.mem_iff, List.mem_cons, ← b2 c]
    by_cases e : c = b <;> simp [e]
  · rw [hd]; have := a.dl r hr; rw [hp] at this; simpa [dl, afterD] using this
  · rw [q, hq]; have := a.q r hr; rw [hp] at this; exact this rfl
  · rw [hh c]
    by_cases e : c = b
    · subst e
      rw [if_pos rfl]
      refine ⟨fun h => ?_, fun h => absurd h (hb u)⟩
      injection h with h; injection h with h; exact absurd h.symm hu
    · rw [if_neg e]

/-- the runtime has one block less -/
theorem Inv.runm {w w' : W} {t : Nat} {r : Rtm} (i : Inv w) (hi : inRun w t = some r) (b : Nat) (f : Rtm → Rtm) (o : Option Owner)
    (ho : ∀ u, o ≠ some (.rt u)) (hth : ∀ u, w'.th u = (setRt w t f).th u) (hd : w'.dls = w.dls) (hq : w'.fds = w.fds)
    (nx : w'.next = w.next) (hh : ∀ x, w'.heap x = if x = b then o else w.heap x)
    (pm : (blocks .run r).Perm (b :: blocks .run (f r)))
    (main : (f r).mainthread = r.mainthread) (ss : (f r).sigstack = r.sigstack) (dl : (f r).libbsd = r.libbsd)
    (q : (f r).qfd = r.qfd) : Inv w' := by
  obtain ⟨hp, hr⟩ := inRun_some hi
  have a := i.th t
  obtain ⟨b1, b2, b3⟩ := rtm_inv i hr
  rw [hp] at b1 b2 b3
  have nd := List.nodup_cons.mp (pm.nodup_iff.mp b3)
  have hb : w.heap b = some (.rt t) := (b2 b).mpr (pm.mem_iff.mpr (by simp))
  refine Inv.run i hi (f r) (fun u => ?_) (fun x hx => ?_) (fun c => ?_) nd.2 main ss ?_ ?_
    (fun _ _ => by rw [hd]) (fun u hu c => ?_) (fun _ _ _ h => by rw [hq]; exact h)
  · rw [hth u]
    by_cases e : u = t
    · subst e; simp [setRt, setTh, hr]
    · simp [setRt, setTh, e]
  · rw [nx] at hx
    rw [hh x, if_neg (fun e => by rw [e] at hx; rw [i.fresh b hx] at hb; cases hb)]; exact i.fresh x hx
  · rw [hh c]
    by_cases e : c = b
    · subst e
      rw [if_pos rfl]
      exact ⟨fun h => absurd h (ho t), fun h => absurd h nd.1⟩
    · rw [if_neg e, b2 c, pm.mem_iff, List.mem_cons]; simp [e]
  · rw [hd]; have := a.dl r hr; rw [hp] at this; simpa [dl, afterD] using this
  · rw [q, hq]; have := a.q r hr; rw [hp] at this; exact this rfl
  · rw [hh c]
    by_cases e : c = b
    · subst e
      rw [if_pos rfl, hb]
      refine ⟨fun h => absurd h (ho u), fun h => ?_⟩
      injection h with h; injection h with h; exact absurd h.symm hu
    · rw [if_neg e]

/-- memory of the program comes or goes -/
theorem Inv.user {w w' : W} (i : Inv w) (b : Nat) (o : Option Owner) (ho : ∀ u, o ≠ some (.rt u)) (hb : ∀ u, w.heap b ≠ some (.rt u))
    (hth : ∀ u, (w'.th u).pc = (w.th u).pc ∧ (w'.th u).rt = (w.th u).rt) (hd : w'.dls = w.dls) (hq : w'.fds = w.fds)
    (nx : w.next ≤ w'.next) (nb : b < w'.next) (hh : ∀ x, w'.heap x = if x = b then o else w.heap x) : Inv w' := by
  refine ⟨fun x hx => ?_, fun u => ?_⟩
  · rw [hh x, if_neg (by omega)]; exact i.fresh x (by omega)
  · rw [hd, hq]
    have a := (i.th u).other (heap' := w'.heap) (fds' := w.fds) (fun c => by
      rw [hh c]
      by_cases e : c = b
      · subst e; rw [if_pos rfl]; exact ⟨fun h => absurd h (ho u), fun h => absurd h (hb u)⟩
      · rw [if_neg e]) (fun _ h => h)
    obtain ⟨e1, e2⟩ := hth u
    have e3 : thBlocks (w'.th u) = thBlocks (w.th u) := by simp only [thBlocks, e1, e2]
    constructor
    · rw [e1, e2]; exact a.out
    · rw [e3]; exact a.own
    · rw [e3]; exact a.nd
    · rw [e2]; exact a.main
    · rw [e2]; exact a.side
    · rw [e1, e2]; exact a.pre
    · rw [e1, e2]; exact a.wk
    · rw [e1, e2]; exact a.sg
    · rw [e1, e2]; exact a.fin
    · rw [e1, e2]; exact a.post
    · rw [e1, e2]; exact a.dl
    · rw [e2]; exact a.dl0
    · rw [e1, e2]; exact a.q

theorem step_inv {w w' : W} {a : Act} (i : Inv w) (h : step w a = some w') : Inv w' := by
  have fn : ∀ u, w.heap w.next ≠ some (.rt u) := fun u => by rw [i.fresh _ (Nat.le_refl _)]; simp
  cases a with
  | call t ok =>
    simp only [step] at h
    split at h
    · cases h
    rename_i hc
    have hp : (w.th t).pc = .out := by
      cases e : (w.th t).pc <;> simp_all
    have a := i.th t
    have hr := a.out.mp hp
    cases ok with
    | false =>
      cases h
      refine Inv.of t i i.fresh ?_ (fun u hu => by simp [note, setTh, hu]) (fun _ _ => rfl) (fun _ _ _ => Iff.rfl) (fun _ _ _ h => h)
      have e : (note (setTh (note w (.call t)) t (fun h => { h with ret := NOMEM })) (.ret t NOMEM)).th t = { w.th t with ret := NOMEM } := by
        simp [note, setTh]
      rw [e]
      exact ⟨a.out, a.own, a.nd, a.main, a.side, a.pre, a.wk, a.sg, a.fin, a.post, a.dl, a.dl0, a.q⟩
    | true =>
      have eg : got (note w (.call t)) t 1 = note (got w t 1) (.call t) := rfl
      rw [alloc_rt_ok, eg] at h
      cases h
      have hn : ∀ b, w.heap b ≠ some (.rt t) := fun b hb => by
        have := (a.own b).mp hb
        simp [thBlocks, hr] at this
      have d0 := a.dl0 hr
      refine Inv.of t i ?_ ?_ ?_ ?_ ?_ ?_
      case refine_2 =>
        refine InvT.mk' (r := { blk := w.next, id := w.nextId, mainthread := decide (t = 0) }) ?_ ?_ ?_ ?_ ?_ ?_ ?_ ?_ ?_ ?_ ?_ ?_ ?_
        all_goals (try simp only [goto, setRt, setTh, failed, note, got, if_true])
        all_goals simp [blocks, sigB, zB, wB, before, afterS, afterZ, afterF, afterD, d0]
        intro b
        have := hn b
        grind
      · intro x hx
        simp only [note, setTh, got] at hx ⊢
        split
        · omega
        · exact i.fresh x (by omega)
      · intro u hu; simp [note, setTh, hu, got]
      · intro u hu; rfl
      · intro u hu b
        simp only [note, setTh, got]
        split
        · have e' : b = w.next := by omega
          subst e'
          rw [i.fresh _ (Nat.le_refl _)]
          simp [Ne.symm hu]
        · exact Iff.rfl
      · intro u hu f hf; exact hf
  | tau t ok =>
    simp only [step] at h
    split at h
    · cases h
    exact tau_inv i h
  | begin t ok =>
    simp only [step] at h
    split at h
    · cases h
    cases hi : inRun w t with
    | none => rw [hi] at h; cases h
    | some r =>
      rw [hi] at h
      dsimp only at h
      cases hpool : r.pool with
      | cons b q =>
        rw [hpool] at h
        cases h
        refine Inv.run0 i hi _ rfl ?_ rfl rfl rfl rfl
        simp only [blocks_run, hpool]
        refine List.Perm.cons _ (List.Perm.append_left _ (List.Perm.append_left _ (List.Perm.append_left _ ?_)))
        exact List.perm_middle.symm
      | nil =>
        rw [hpool] at h
        cases ok with
        | false => cases h; exact i
        | true =>
          cases h
          refine Inv.run1 i hi w.next _ (fun _ => rfl) rfl rfl fn (.inr (Nat.le_refl _)) (by simp [setRt, setTh]) (by simp [setRt, setTh])
            (fun _ => rfl) ?_ rfl rfl rfl rfl
          simp only [blocks_run]
          exact (List.perm_middle (l₁ := r.blk :: (r.sigstack.toList ++ ((r.zchanpool.toList ++ r.zchans) ++ (match r.worker with | none => [] | some k => k.blks))))).trans
            (by simp) |> fun p => by simpa using p
  | endco t b =>
    simp only [step] at h
    split at h
    · cases h
    cases hi : inRun w t with
    | none => rw [hi] at h; cases h
    | some r =>
      rw [hi] at h
      dsimp only at h
      split at h
      · rename_i hb
        cases h
        refine Inv.run0 i hi _ rfl ?_ rfl rfl rfl rfl
        simp only [blocks_run]
        refine List.Perm.cons _ (List.Perm.append_left _ (List.Perm.append_left _ (List.Perm.append_left _ ?_)))
        have := List.perm_cons_erase hb
        refine List.Perm.symm ((this.append_right r.pool).trans ?_)
        rw [← List.append_assoc]
        exact (List.perm_append_comm (l₁ := [b]) (l₂ := r.cos.erase b ++ r.pool))
      · cases h
  | finish t =>
    simp only [step] at h
    split at h
    · cases h
    cases hi : inRun w t with
    | none => rw [hi] at h; cases h
    | some r =>
      rw [hi] at h
      dsimp only at h
      split at h
      · cases h
        rename_i hc
        obtain ⟨hp, hr⟩ := inRun_some hi
        fields
        rw [hp] at a3 a4 a5 a6 a7 a8 a9 b1 b2 b3
        refine Inv.of t i ?_ ?_ ?_ ?_ ?_ ?_
        case refine_2 => mine r
        frame'
      · cases h
  | mkchan t ok =>
    simp only [step] at h
    split at h
    · cases h
    cases hi : inRun w t with
    | none => rw [hi] at h; cases h
    | some r =>
      rw [hi] at h
      dsimp only at h
      cases hz : r.zchans with
      | cons b q =>
        rw [hz] at h
        cases h
        refine Inv.runm i hi b _ (some .user) (by simp) (fun _ => rfl) rfl rfl rfl (fun _ => rfl) ?_ rfl rfl rfl rfl
        simp only [blocks_run, hz]
        have e : ∀ (x : Nat) (A B C : List Nat), (x :: (A ++ ((B ++ b :: q) ++ C))).Perm (b :: (x :: (A ++ ((B ++ q) ++ C)))) := by
          intro x A B C
          have := List.perm_middle (a := b) (l₁ := x :: (A ++ B)) (l₂ := q ++ C)
          simpa using this
        exact e _ _ _ _
      | nil =>
        rw [hz] at h
        cases h
        cases ok with
        | false => exact i
        | true => exact i.user w.next (some .user) (by simp) fn (fun _ => ⟨rfl, rfl⟩) rfl rfl (by simp [alloc]) (by simp [alloc]) (fun _ => rfl)
  | relchan t b ok =>
    simp only [step] at h
    split at h
    · cases h
    cases hi : inRun w t with
    | none => rw [hi] at h; cases h
    | some r =>
      rw [hi] at h
      dsimp only at h
      split at h
      · rename_i hb
        have ltb : b < w.next := by
          rcases Nat.lt_or_ge b w.next with g | g
          · exact g
          · rw [i.fresh b g] at hb; cases hb
        split at h
        · cases h
          refine Inv.run1 i hi b _ (fun _ => rfl) rfl rfl (by rw [hb]; simp) (.inl (by rw [hb]; simp)) (Nat.le_refl _) ltb
            (fun _ => rfl) ?_ rfl rfl rfl rfl
          simp only [blocks_run]
          have e : ∀ (x : Nat) (A B C : List Nat), (x :: (A ++ ((B ++ b :: r.zchans) ++ C))).Perm (b :: (x :: (A ++ ((B ++ r.zchans) ++ C)))) := by
            intro x A B C
            have := List.perm_middle (a := b) (l₁ := x :: (A ++ B)) (l₂ := r.zchans ++ C)
            simpa using this
          exact e _ _ _ _
        · cases h
          have e : free w b = { w with heap := fun x => if x = b then none else w.heap x } := by simp [free, hb]
          rw [e]
          exact i.user b none (by simp) (by rw [hb]; simp) (fun _ => ⟨rfl, rfl⟩) rfl rfl (Nat.le_refl _) ltb (fun _ => rfl)
      · cases h
  | grow t ok =>
    simp only [step] at h
    split at h
    · cases h
    cases hi : inRun w t with
    | none => rw [hi] at h; cases h
    | some r =>
      rw [hi] at h
      dsimp only at h
      cases ok with
      | false => cases h; exact i
      | true =>
        obtain ⟨hp, hr⟩ := inRun_some hi
        cases hz : r.zchanpool with
        | none =>
          rw [hz] at h
          cases h
          refine Inv.run1 i hi w.next _ (fun _ => rfl) rfl rfl fn (.inr (Nat.le_refl _)) (by simp [setRt, setTh, freeOpt]) (by simp [setRt, setTh, freeOpt])
            (fun _ => rfl) ?_ rfl rfl rfl rfl
          simp only [blocks_run, hz]
          have e : ∀ (x y : Nat) (A B C : List Nat), (x :: (A ++ ((some y).toList ++ B ++ C))).Perm (y :: (x :: (A ++ ((none : Option Nat).toList ++ B ++ C)))) := by
            intro x y A B C
            have := List.perm_middle (a := y) (l₁ := x :: A) (l₂ := B ++ C)
            simpa using this
          exact e _ _ _ _ _
        | some c =>
          rw [hz] at h
          -- first the new block, then the old one goes
          have i1 : Inv (setRt (alloc w (.rt t) true).1 t (fun r => { r with cos := w.next :: r.cos })) := by
            refine Inv.run1 i hi w.next _ (fun _ => rfl) rfl rfl fn (.inr (Nat.le_refl _)) (by simp [alloc, setRt, setTh]) (by simp [alloc, setRt, setTh])
              (fun _ => rfl) ?_ rfl rfl rfl rfl
            simp only [blocks_run]
            have e : ∀ (x y : Nat) (A B : List Nat), (x :: (A ++ (y :: B))).Perm (y :: (x :: (A ++ B))) := by
              intro x y A B
              exact List.perm_middle (a := y) (l₁ := x :: A) (l₂ := B)
            have := e r.blk w.next (r.sigstack.toList ++ ((r.zchanpool.toList ++ r.zchans) ++ (match r.worker with | none => [] | some k => k.blks))) (r.cos ++ r.pool)
            simpa using this
          have hc : w.heap c = some (.rt t) := by
            have := (i.th t).own c
            rw [this]
            simp [thBlocks, hr, hp, blocks_run, hz]
          have hcn : c ≠ w.next := fun e => by rw [e] at hc; exact fn t hc
          have hi1 : inRun (setRt (alloc w (.rt t) true).1 t (fun r => { r with cos := w.next :: r.cos })) t = some { r with cos := w.next :: r.cos } := by
            simp [inRun, setRt, setTh, alloc, hp, hr]
          cases h
          refine Inv.runm i1 hi1 c (fun _ => { r with zchanpool := some w.next }) none (by simp) ?_ ?_ ?_ ?_ ?_ ?_ rfl rfl rfl rfl
          · intro u
            by_cases e : u = t <;> simp [setRt, setTh, alloc, freeOpt, free, hc, hcn, e, hr]
          · simp [setRt, setTh, alloc, freeOpt, free, hc, hcn]
          · simp [setRt, setTh, alloc, freeOpt, free, hc, hcn]
          · simp [setRt, setTh, alloc, freeOpt, free, hc, hcn]
          · intro x
            simp [setRt, setTh, alloc, freeOpt, free, hc, hcn]
          · simp only [blocks_run, hz]
            have e : ∀ (x y : Nat) (A B C D : List Nat), (x :: (A ++ (((some c).toList ++ B) ++ (C ++ (y :: D))))).Perm
                (c :: (x :: (A ++ (((some y).toList ++ B) ++ (C ++ D))))) := by
              intro x y A B C D
              have p1 := List.perm_middle (a := c) (l₁ := x :: A) (l₂ := B ++ (C ++ y :: D))
              have p2 := List.perm_middle (a := y) (l₁ := x :: (A ++ (B ++ C))) (l₂ := D)
              have p3 := List.perm_middle (a := y) (l₁ := x :: A) (l₂ := B ++ (C ++ D))
              have p4 : (x :: (A ++ (B ++ (C ++ y :: D)))).Perm (x :: (A ++ (y :: (B ++ (C ++ D))))) := by
                have := p2.trans (by simpa using p3.symm)
                simpa using this
              have := p1.trans (List.Perm.cons c p4)
              simpa using this
            exact e _ _ _ _ _ _
  | wait t now q =>
    simp only [step] at h
    split at h
    · cases h
    cases hi : inRun w t with
    | none => rw [hi] at h; cases h
    | some r =>
      rw [hi] at h
      dsimp only at h
      split at h
      · cases q with
        | none => cases h; exact i
        | some f =>
          dsimp only at h
          split at h
          · rename_i hf
            cases h
            obtain ⟨hp, hr⟩ := inRun_some hi
            have a := i.th t
            obtain ⟨b1, b2, b3⟩ := rtm_inv i hr
            rw [hp] at b1 b2 b3
            refine Inv.run i hi { r with qfd := f, qfdcreated := now, nevwaiters := r.nevwaiters + 1 } (fun u => ?_) i.fresh b2 b3 rfl rfl ?_ ?_
              (fun _ _ => rfl) (fun _ _ _ => Iff.rfl) ?_
            · by_cases e : u = t
              · subst e; simp [setRt, setTh, hr]
              · simp [setRt, setTh, e]
            · have := a.dl r hr; rw [hp] at this; simpa [setRt, setTh, afterD] using this
            · intro _; simp [setRt, setTh]
            · intro u hu g hg
              simp only [setRt, setTh]
              rw [if_neg (fun e => by rw [e, hf] at hg; cases hg)]
              exact hg
          · cases h
      · cases h
        exact Inv.run0 i hi _ rfl (List.Perm.refl _) rfl rfl rfl rfl
  | unwait t =>
    simp only [step] at h
    split at h
    · cases h
    cases hi : inRun w t with
    | none => rw [hi] at h; cases h
    | some r =>
      rw [hi] at h
      dsimp only at h
      split at h
      · cases h
      · cases h
        exact Inv.run0 i hi _ rfl (List.Perm.refl _) rfl rfl rfl rfl
  | rc t now =>
    simp only [step] at h
    split at h
    · cases h
    cases hi : inRun w t with
    | none => rw [hi] at h; cases h
    | some r =>
      rw [hi] at h
      dsimp only at h
      split at h
      · rename_i hq
        cases h
        obtain ⟨hp, hr⟩ := inRun_some hi
        have a := i.th t
        obtain ⟨b1, b2, b3⟩ := rtm_inv i hr
        have hf := a.q r hr
        rw [hp] at b1 b2 b3 hf
        have hf := hf rfl (by omega)
        refine Inv.run i hi { r with qfd := 0 } (fun u => ?_) ?_ ?_ b3 rfl rfl ?_ ?_ ?_ ?_ ?_
        · by_cases e : u = t
          · subst e; simp [setRt, setTh, hr, closeq, hf]
          · simp [setRt, setTh, e, closeq, hf]
        · simp only [closeq, hf, if_true, setRt, setTh]; exact i.fresh
        · simp only [closeq, hf, if_true, setRt, setTh]; exact b2
        · have := a.dl r hr; rw [hp] at this; simpa [setRt, setTh, afterD, closeq, hf] using this
        · intro hz; exact absurd rfl hz
        · simp [closeq, hf, setRt, setTh]
        · simp [closeq, hf, setRt, setTh]
        · intro u hu g hg
          simp only [closeq, hf, if_true, setRt, setTh]
          rw [if_neg (fun e => by rw [e, hf] at hg; injection hg with hg; injection hg with hg; exact hu hg.symm)]
          exact hg
      · cases h
        exact i
  | drop t =>
    simp only [step] at h
    split at h
    · cases h
    cases hi : inRun w t with
    | none => rw [hi] at h; cases h
    | some r =>
      rw [hi] at h
      dsimp only at h
      cases hpool : r.pool with
      | nil => rw [hpool] at h; cases h
      | cons b q =>
        rw [hpool] at h
        cases h
        obtain ⟨hp, hr⟩ := inRun_some hi
        have hb : w.heap b = some (.rt t) := by
          rw [(i.th t).own b]
          simp [thBlocks, hr, hp, blocks_run, hpool]
        refine Inv.runm i hi b (fun r => { r with pool := q }) none (by simp) ?_ ?_ ?_ ?_ ?_ ?_ rfl rfl rfl rfl
        · intro u; simp [setRt, setTh, free, hb]
        · simp [setRt, setTh, free, hb]
        · simp [setRt, setTh, free, hb]
        · simp [setRt, setTh, free, hb]
        · intro x; simp [setRt, setTh, free, hb]
        · simp only [blocks_run, hpool]
          have e : ∀ (x : Nat) (A B C D : List Nat), (x :: (A ++ (B ++ (C ++ (D ++ b :: q))))).Perm (b :: (x :: (A ++ (B ++ (C ++ (D ++ q)))))) := by
            intro x A B C D
            have := List.perm_middle (a := b) (l₁ := x :: (A ++ (B ++ (C ++ D)))) (l₂ := q)
            simpa using this
          exact e _ _ _ _ _
  | random t =>
    simp only [step] at h
    split at h
    · cases h
    cases hi : inRun w t with
    | none => rw [hi] at h; cases h
    | some r =>
      rw [hi] at h
      dsimp only at h
      split at h
      · cases h; exact i
      · rename_i hl
        cases h
        obtain ⟨hp, hr⟩ := inRun_some hi
        have a := i.th t
        obtain ⟨b1, b2, b3⟩ := rtm_inv i hr
        have hq := a.q r hr
        have hd := a.dl r hr
        rw [hp] at b1 b2 b3 hq hd
        refine Inv.run i hi { r with libbsd := true } (fun u => ?_) i.fresh b2 b3 rfl rfl ?_ (hq rfl) ?_ (fun _ _ _ => Iff.rfl) (fun _ _ _ h => h)
        · by_cases e : u = t
          · subst e; simp [setRt, setTh, hr]
          · simp [setRt, setTh, e]
        · simp [setRt, setTh, hd, hl]
        · intro u hu; simp [setRt, setTh, hu]
  | submit t b =>
    simp only [step] at h
    split at h
    · cases h
    cases hi : inRun w t with
    | none => rw [hi] at h; cases h
    | some r =>
      rw [hi] at h
      dsimp only at h
      split at h
      · cases h
        exact Inv.run0 i hi _ rfl (List.Perm.refl _) rfl rfl rfl rfl
      · cases h
  | done t b =>
    simp only [step] at h
    split at h
    · cases h
    cases hr : (w.th t).rt with
    | none => rw [hr] at h; cases h
    | some r =>
      rw [hr] at h
      dsimp only at h
      split at h
      · cases h
        have e : jobDone w r b = { w with fault := (jobDone w r b).fault } := by
          unfold jobDone
          rw [use_heap (use w r.blk) b, use_heap w r.blk]
        rw [e]
        generalize (jobDone w r b).fault = ft
        have a := i.th t
        refine Inv.of t i i.fresh ?_ (fun u hu => by simp [setRt, setTh, hu]) (fun _ _ => rfl) (fun _ _ _ => Iff.rfl) (fun _ _ _ h => h)
        refine InvT.mk' (r := { r with jobs := r.jobs.erase b }) (by simp [setRt, setTh, hr]) ?_ ?_ ?_ (a.main r hr) (a.side r hr) ?_ ?_ ?_ ?_ ?_ ?_ ?_
        all_goals simp only [setRt, setTh, if_true]
        · intro e; rw [a.out.mp e] at hr; cases hr
        · intro c; rw [a.own c, thBlocks, hr]; rfl
        · have := a.nd; rw [thBlocks, hr] at this; exact this
        · intro hb; have := a.pre r hr hb; simp [this]
        · exact a.wk r hr
        · exact a.sg r hr
        · exact a.fin r hr
        · exact a.post r hr
        · exact a.dl r hr
        · exact a.q r hr
      · cases h
  | watch t n =>
    simp only [step] at h
    split at h
    · cases h
    cases hi : inRun w t with
    | none => rw [hi] at h; cases h
    | some r =>
      rw [hi] at h
      dsimp only at h
      cases h
      exact Inv.run0 i hi _ rfl (List.Perm.refl _) rfl rfl rfl rfl
  | signal t n =>
    simp only [step] at h
    split at h
    · cases h
    cases h
    obtain ⟨e1, e2, e3, e4, _⟩ := deliver_same w t n
    refine ⟨by rw [e1, e2]; exact i.fresh, fun u => ?_⟩
    rw [e1, e3, e4]
    rcases deliver_th w t n u with e | ⟨r, q, hr, e⟩
    · rw [e]; exact i.th u
    · rw [e]; exact (i.th u).queue q hr
  | wsignal t n =>
    simp only [step] at h
    split at h
    · cases h
    split at h
    · cases h
    · split at h
      · cases h
      · cases h
        unfold deliverWorker
        split <;> exact ⟨i.fresh, i.th⟩
  | sigaction n d =>
    simp only [step] at h
    split at h
    · cases h
    · cases h; exact ⟨i.fresh, i.th⟩
  | sigaltstack t =>
    simp only [step] at h
    split at h
    · cases h
    · cases h
      refine i.user w.next (some .alt) (by simp) fn (fun u => ?_) rfl rfl (by simp [setTh, alloc]) (by simp [setTh, alloc]) (fun _ => rfl)
      by_cases e : u = t <;> simp [setTh, alloc, e]
  | «open» f =>
    simp only [step] at h
    split at h
    · cases h
    split at h
    · rename_i hf
      cases h
      refine ⟨i.fresh, fun u => (i.th u).other (fun _ => Iff.rfl) (fun g hg => ?_)⟩
      dsimp only
      rw [if_neg (fun e => by rw [e, hf] at hg; cases hg)]
      exact hg
    · cases h
  | close f =>
    simp only [step] at h
    split at h
    · cases h
    split at h
    · rename_i hf
      cases h
      refine ⟨i.fresh, fun u => (i.th u).other (fun _ => Iff.rfl) (fun g hg => ?_)⟩
      dsimp only
      rw [if_neg (fun e => by rw [e, hf] at hg; cases hg)]
      exact hg
    · cases h

theorem init_inv (fds : Nat → Bool) (handler : Nat → Disp) (n : Nat) : Inv (init fds handler n) := by
  refine ⟨fun _ _ => rfl, fun t => ?_⟩
  constructor <;> simp [init, thBlocks]

theorem reach_inv {p : W → Act → Prop} {w : W} (r : Reach p w) : Inv w := by
  induction r with
  | init => exact init_inv _ _ _
  | step _ _ h ih => exact step_inv ih h

end Neco.Run
