import Verif.Proof.Run7

/-! # The life of a runtime: stacks of signal handlers -/

namespace Neco.Run

theorem free_alt {w : W} {b x : Nat} (hx : w.heap x ≠ some .alt) (h : w.heap b = some .alt) : (free w x).heap b = some .alt := by
  unfold free
  split
  · exact h
  · have : b ≠ x := fun e => hx (e ▸ h)
    simp [this, h]

theorem freeAll_alt {b : Nat} : ∀ (l : List Nat) (w : W), (∀ x ∈ l, w.heap x ≠ some .alt) → w.heap b = some .alt → (freeAll w l).heap b = some .alt
  | [], _, _, h => h
  | x :: q, w, hl, h => by
    refine freeAll_alt q (free w x) (fun y hy => ?_) (free_alt (hl x (by simp)) h)
    have := hl y (by simp [hy])
    unfold free
    split
    · exact this
    · simp only
      split
      · simp
      · exact this

theorem got_alt {w : W} {t k b : Nat} (fr : ∀ x, w.next ≤ x → w.heap x = none) (h : w.heap b = some .alt) : (got w t k).heap b = some .alt := by
  rw [got_heap, if_neg]
  · exact h
  · intro g
    rw [fr b g.1] at h
    cases h

theorem tau_keepAlt {w w' : W} {t : Nat} {ok : Nat → Bool} {b : Nat} (i : Inv w) (hb : w.heap b = some .alt) (h : tau w t ok = some w') :
    w'.heap b = some .alt := by
  cases hr : (w.th t).rt with
  | none => simp [tau, hr] at h
  | some r =>
    obtain ⟨b1, b2, b3⟩ := rtm_inv i hr
    have own : ∀ x ∈ blocks (w.th t).pc r, w.heap x ≠ some .alt := fun x hx => by rw [(b2 x).mpr hx]; simp
    have g1 := got_alt (t := t) (k := 1) i.fresh hb
    cases hp : (w.th t).pc with
    | out => simp [tau, hr, hp] at h
    | run => simp [tau, hr, hp] at h
    | sig =>
      simp only [tau, hr, hp] at h
      split at h
      · cases h; exact hb
      · cases ho : ok 0 with
        | false => rw [ho, alloc_rt_no] at h; cases h; exact hb
        | true => rw [ho, alloc_rt_ok] at h; cases h; exact g1
    | alt => simp only [tau, hr, hp] at h; cases h; exact hb
    | set k =>
      simp only [tau, hr, hp] at h
      split at h <;> cases h <;> exact hb
    | work =>
      simp only [tau, hr, hp] at h
      rcases workerNew_spec w t ok i.fresh with ⟨k, e⟩ | ⟨k, K, e, _⟩ <;> rw [e] at h <;> cases h
      · exact hb
      · exact got_alt (t := t) i.fresh hb
    | start =>
      simp only [tau, hr, hp] at h
      cases ho : ok 0 with
      | false => rw [ho, alloc_rt_no] at h; cases h; exact hb
      | true =>
        rw [ho, alloc_rt_ok] at h
        dsimp only at h
        split at h
        · cases h; exact g1
        · cases h
          show (free (got w t 1) w.next).heap b = some .alt
          exact free_alt (by simp [got]) g1
    | fin =>
      simp only [tau, hr, hp] at h
      cases h
      have hpool : ∀ x ∈ r.pool, w.heap x ≠ some .alt := fun x hx => own x (by simp [blocks, hx])
      show (freeAll (if r.qfd ≠ 0 then closeq w t r.qfd else w) r.pool).heap b = some .alt
      have hc : (if r.qfd ≠ 0 then closeq w t r.qfd else w).heap = w.heap := by
        split
        · rw [closeq_rest]
        · rfl
      exact freeAll_alt _ _ (by rw [hc]; exact hpool) (by rw [hc]; exact hb)
    | zch =>
      simp only [tau, hr, hp] at h
      cases h
      show (freeOpt (freeAll w r.zchans) r.zchanpool).heap b = some .alt
      rw [freeOpt_eq, ← freeAll_append]
      rw [hp] at own
      refine freeAll_alt _ _ (fun x hx => own x ?_) hb
      simp only [blocks, zB, afterZ]
      simp at hx ⊢
      grind
    | free =>
      simp only [tau, hr, hp] at h
      split at h
      · cases h; exact hb
      · split at h
        · cases h; exact hb
        · rename_i x hs
          cases h
          exact free_alt (own x (by simp [blocks, sigB, hp, afterS, hs])) hb
    | unset k => simp only [tau, hr, hp] at h; split at h <;> cases h <;> exact hb
    | dl => simp only [tau, hr, hp] at h; cases h; simp only [goto, setTh]; split <;> exact hb
    | wfree =>
      simp only [tau, hr, hp] at h
      rw [jobsDone_eq] at h
      cases h
      show (workerFree { w with fault := _ } r.worker).heap b = some .alt
      cases hk : r.worker with
      | none => exact hb
      | some k =>
        rw [workerFree_eq]
        rw [hp] at own
        exact freeAll_alt _ _ (fun x hx => own x (by simp [blocks, wB, hk, hx])) hb
    | rel =>
      simp only [tau, hr, hp] at h
      cases h
      show (free w r.blk).heap b = some .alt
      exact free_alt (own _ (by simp [blocks])) hb

/-- the program's alternate stacks stay -/
theorem step_alt {w w' : W} {a : Act} {b : Nat} (i : Inv w) (hb : w.heap b = some .alt) (h : step w a = some w') : w'.heap b = some .alt := by
  cases a with
  | tau t ok =>
    simp only [step] at h
    split at h
    · cases h
    exact tau_keepAlt i hb h
  | call t ok =>
    simp only [step] at h
    split at h
    · cases h
    cases ok with
    | false => cases h; exact hb
    | true => rw [alloc_rt_ok] at h; cases h; exact got_alt (t := t) (k := 1) i.fresh hb
  | finish t =>
    simp only [step] at h
    split at h
    · cases h
    split at h
    · cases h
    · split at h
      · cases h; exact hb
      · cases h
  | begin t ok =>
    simp only [step] at h
    split at h
    · cases h
    split at h
    · cases h
    · split at h
      · cases h; exact hb
      · cases ok with
        | false => cases h; exact hb
        | true => rw [alloc_rt_ok] at h; cases h; exact got_alt (t := t) (k := 1) i.fresh hb
  | endco t b =>
    simp only [step] at h
    split at h
    · cases h
    split at h
    · cases h
    · split at h
      · cases h; exact hb
      · cases h
  | mkchan t ok =>
    simp only [step] at h
    split at h
    · cases h
    cases hi : inRun w t with
    | none => rw [hi] at h; cases h
    | some r =>
      rw [hi] at h
      obtain ⟨hq, hr⟩ := inRun_some hi
      dsimp only at h
      split at h
      · rename_i c q hz
        cases h
        have hc : w.heap c = some (.rt t) := ((rtm_inv i hr).2.1 c).mpr (by simp [blocks, zB, hq, afterZ, hz])
        show (if b = c then some .user else w.heap b) = some .alt
        rw [if_neg, hb]
        intro e; subst e; rw [hb] at hc; cases hc
      · cases h
        cases ok with
        | false => exact hb
        | true =>
          show (if b = w.next then some .user else w.heap b) = some .alt
          rw [if_neg, hb]
          intro e; subst e; rw [i.fresh _ (Nat.le_refl _)] at hb; cases hb
  | relchan t c ok =>
    simp only [step] at h
    split at h
    · cases h
    split at h
    · cases h
    · split at h
      · rename_i hc
        split at h
        · cases h
          show (if b = c then some (.rt t) else w.heap b) = some .alt
          rw [if_neg, hb]
          intro e; subst e; rw [hb] at hc; cases hc
        · cases h; exact free_alt (by rw [hc]; simp) hb
      · cases h
  | grow t ok =>
    simp only [step] at h
    split at h
    · cases h
    cases hi : inRun w t with
    | none => rw [hi] at h; cases h
    | some r =>
      rw [hi] at h
      obtain ⟨hq, hr⟩ := inRun_some hi
      dsimp only at h
      cases ok with
      | false => cases h; exact hb
      | true =>
        rw [alloc_rt_ok] at h
        cases h
        show (freeOpt (got w t 1) r.zchanpool).heap b = some .alt
        have g1 := got_alt (t := t) (k := 1) i.fresh hb
        cases hz : r.zchanpool with
        | none => exact g1
        | some c =>
          have hc : w.heap c = some (.rt t) := ((rtm_inv i hr).2.1 c).mpr (by simp [blocks, zB, hq, afterZ, hz])
          show (free (got w t 1) c).heap b = some .alt
          exact free_alt (by
            simp only [got]
            split
            · simp
            · rw [hc]; simp) g1
  | wait t now q =>
    simp only [step] at h
    split at h
    · cases h
    split at h
    · cases h
    · split at h
      · split at h
        · cases h; exact hb
        · split at h
          · cases h; exact hb
          · cases h
      · cases h; exact hb
  | unwait t =>
    simp only [step] at h
    split at h
    · cases h
    split at h
    · cases h
    · split at h
      · cases h
      · cases h; exact hb
  | rc t now =>
    simp only [step] at h
    split at h
    · cases h
    split at h
    · cases h
    · split at h
      · cases h; rw [closeq_rest]; exact hb
      · cases h; exact hb
  | drop t =>
    simp only [step] at h
    split at h
    · cases h
    cases hi : inRun w t with
    | none => rw [hi] at h; cases h
    | some r =>
      rw [hi] at h
      obtain ⟨hq, hr⟩ := inRun_some hi
      dsimp only at h
      split at h
      · cases h
      · rename_i c q hpl
        cases h
        have hc : w.heap c = some (.rt t) := ((rtm_inv i hr).2.1 c).mpr (by simp [blocks, hpl])
        exact free_alt (by rw [hc]; simp) hb
  | random t =>
    simp only [step] at h
    split at h
    · cases h
    split at h
    · cases h
    · split at h <;> cases h <;> exact hb
  | submit t b =>
    simp only [step] at h
    split at h
    · cases h
    split at h
    · cases h
    · split at h
      · cases h; exact hb
      · cases h
  | done t c =>
    simp only [step] at h
    split at h
    · cases h
    split at h
    · cases h
    · split at h
      · cases h
        show (jobDone w _ c).heap b = some .alt
        unfold jobDone
        rw [use_heap, use_heap w]
        exact hb
      · cases h
  | watch t n =>
    simp only [step] at h
    split at h
    · cases h
    split at h
    · cases h
    · cases h; exact hb
  | signal t n =>
    simp only [step] at h
    split at h
    · cases h
    cases h
    rw [(deliver_same w t n).1]; exact hb
  | wsignal t n =>
    simp only [step] at h
    split at h
    · cases h
    split at h
    · cases h
    · split at h
      · cases h
      · cases h
        unfold deliverWorker
        split <;> exact hb
  | sigaction n d =>
    simp only [step] at h
    split at h
    · cases h
    · cases h; exact hb
  | sigaltstack t =>
    simp only [step] at h
    split at h
    · cases h
    · cases h
      show (if b = w.next then some .alt else w.heap b) = some .alt
      split <;> first | rfl | exact hb
  | «open» f =>
    simp only [step] at h
    split at h
    · cases h
    split at h
    · cases h; exact hb
    · cases h
  | close f =>
    simp only [step] at h
    split at h
    · cases h
    split at h
    · cases h; exact hb
    · cases h

structure InvA (w : W) : Prop where
  side : ∀ t b, t ≠ 0 → (w.th t).alt = some b → w.heap b = some .alt
  main : ∀ b, early (w.th 0).pc = true → (w.th 0).alt = some b → w.heap b = some .alt ∨ ∃ r, (w.th 0).rt = some r ∧ r.sigstack = some b
  new : Ev.call 0 ∉ w.log → (w.th 0).pc = .out ∧ ∀ b, (w.th 0).alt = some b → w.heap b = some .alt

/-- a step that leaves the alternate stacks, and thread 0 where it is -/
theorem InvA.keep {w w' : W} (s : InvA w) (ka : ∀ b, w.heap b = some .alt → w'.heap b = some .alt)
    (h1 : ∀ t, (w'.th t).alt = (w.th t).alt) (h2 : early (w'.th 0).pc = true → early (w.th 0).pc = true)
    (h3 : ∀ r, early (w.th 0).pc = true → (w.th 0).rt = some r → ∃ r', (w'.th 0).rt = some r' ∧ r'.sigstack = r.sigstack)
    (h4 : Ev.call 0 ∉ w'.log → Ev.call 0 ∉ w.log ∧ ((w.th 0).pc = .out → (w'.th 0).pc = .out)) : InvA w' := by
  refine ⟨fun t b ht hb => ?_, fun b he hb => ?_, fun hn => ?_⟩
  · rw [h1] at hb; exact ka _ (s.side t b ht hb)
  · rw [h1] at hb
    rcases s.main b (h2 he) hb with g | ⟨r, hr, hs⟩
    · exact .inl (ka _ g)
    · obtain ⟨r', hr', e⟩ := h3 r (h2 he) hr
      exact .inr ⟨r', hr', e.trans hs⟩
  · obtain ⟨g1, g2⟩ := s.new (h4 hn).1
    exact ⟨(h4 hn).2 g1, fun b hb => ka _ (g2 b (by rw [h1] at hb; exact hb))⟩

theorem step_invA {w w' : W} {a : Act} (i : Inv w) (si : ∀ t, InvS w t) (s : InvA w) (h : step w a = some w') : InvA w' := by
  have ka : ∀ b, w.heap b = some .alt → w'.heap b = some .alt := fun b hb => step_alt i hb h
  cases step_cases i h with
  | tau t ok r hr k tk =>
    by_cases e : t = 0
    · subst e
      have hmt := (i.th 0).main r hr
      have hne : Ev.call 0 ∈ w.log := by
        refine Classical.byContradiction (fun hn => ?_)
        have := (i.th 0).out.mp (s.new hn).1
        rw [hr] at this; cases this
      have hl' : Ev.call 0 ∈ w'.log := by
        cases tk <;> rename_i hl _ <;> rw [hl] <;> simp [hne]
      refine ⟨fun t b ht hb => ?_, fun b he hb => ?_, fun hn => absurd hl' hn⟩
      · rw [k.other t ht] at hb; exact ka _ (s.side t b ht hb)
      · have s2 := s.main b
        cases tk <;> simp_all [early]
        all_goals (first | (rcases s2 with g | g <;> simp [ka, g]; done) | grind)
    · have h0 := k.other 0 (Ne.symm e)
      refine s.keep ka (fun u => ?_) (by rw [h0]; exact id) (fun r _ hr => ⟨r, by rw [h0]; exact hr, rfl⟩) ?_
      · by_cases eu : u = t
        · subst eu
          have hm := (i.th u).main r hr
          have hs := (si u).only
          cases tk <;> simp_all [mainOnly]
        · rw [k.other u eu]
      · rw [h0]
        cases tk <;> rename_i hl _ <;> rw [hl] <;> simp
  | callNo t hp ht hh hl hi hs =>
    refine s.keep ka (fun u => ?_) ?_ ?_ ?_
    · rw [ht u]; split
      · rename_i e; rw [e]
      · rfl
    · rw [ht 0]; split
      · rename_i e; subst e; exact id
      · exact id
    · intro r he hr
      rw [ht 0]; split
      · rename_i e; subst e; exact ⟨r, hr, rfl⟩
      · exact ⟨r, hr, rfl⟩
    · rw [hl, ht 0]
      intro hn
      simp only [List.mem_cons, not_or] at hn
      refine ⟨hn.2.2, fun g => ?_⟩
      split
      · rename_i e; subst e; exact g
      · exact g
  | call t b hp ht hh hl hi hs =>
    refine ⟨fun u c hu hc => ?_, fun c he hc => ?_, fun hn => ?_⟩
    · rw [ht u] at hc
      split at hc
      · rename_i e; subst e; exact ka _ (s.side u c hu hc)
      · exact ka _ (s.side u c hu hc)
    · rw [ht 0] at he hc ⊢
      split at he
      · cases he
      · rename_i e
        rw [if_neg e] at hc ⊢
        rcases s.main c he hc with g | g
        · exact .inl (ka _ g)
        · exact .inr g
    · rw [hl] at hn
      simp only [List.mem_cons, not_or] at hn
      have e : (0 : Nat) ≠ t := fun e => hn.2.1 (by rw [e])
      rw [ht 0, if_neg e]
      obtain ⟨g1, g2⟩ := s.new hn.2.2
      exact ⟨g1, fun b hb => ka _ (g2 b hb)⟩
  | rt a t r r' hr h1 h2 h3 ht hh hl hi hs =>
    refine s.keep ka (fun u => ?_) ?_ ?_ ?_
    · rw [ht u]; split
      · rename_i e; rw [e]
      · rfl
    · rw [ht 0]; split
      · rename_i e; subst e; exact id
      · exact id
    · intro r1 he hr1
      rw [ht 0]; split
      · rename_i e; subst e; rw [hr] at hr1; cases hr1; exact ⟨r', rfl, h1⟩
      · exact ⟨r1, hr1, rfl⟩
    · rw [hl, ht 0]
      refine fun hn => ⟨hn, fun g => ?_⟩
      split
      · rename_i e; subst e; exact g
      · exact g
  | finish t r hr hp ht hh hl hi hs =>
    refine s.keep ka (fun u => ?_) ?_ ?_ ?_
    · rw [ht u]; split
      · rename_i e; rw [e]
      · rfl
    · rw [ht 0]; split
      · rename_i e; subst e; rw [hp]; exact id
      · exact id
    · intro r1 he hr1
      rw [ht 0]; split
      · rename_i e; subst e; exact ⟨r1, hr1, rfl⟩
      · exact ⟨r1, hr1, rfl⟩
    · rw [hl, ht 0]
      refine fun hn => ⟨hn, fun g => ?_⟩
      split
      · rename_i e; subst e; rw [hp] at g; cases g
      · exact g
  | signal t n hw =>
    have e := (deliver_same w t n).2.2.2.2.2.1
    rw [← hw] at e
    have g : ∀ u, w'.th u = w.th u ∨ ∃ r q, (w.th u).rt = some r ∧ w'.th u = { w.th u with rt := some { r with sigqueue := q } } := by
      intro u; rw [hw]; exact deliver_th w t n u
    refine s.keep ka (fun u => ?_) ?_ ?_ ?_
    · rcases g u with g | ⟨r, q, hr, g⟩ <;> rw [g]
    · rcases g 0 with g | ⟨r, q, hr, g⟩ <;> rw [g] <;> exact id
    · intro r1 he hr1
      rcases g 0 with g | ⟨r, q, hr, g⟩ <;> rw [g]
      · exact ⟨r1, hr1, rfl⟩
      · rw [hr] at hr1; cases hr1; exact ⟨_, rfl, rfl⟩
    · rw [e]
      refine fun hn => ⟨hn, fun hp => ?_⟩
      rcases g 0 with g | ⟨r, q, hr, g⟩ <;> rw [g] <;> exact hp
  | sigaction n d hd ht hh hl hi hs =>
    exact s.keep ka (fun u => by rw [ht]) (by rw [ht]; exact id) (fun r _ hr => ⟨r, by rw [ht]; exact hr, rfl⟩) (by rw [hl, ht]; exact fun h => ⟨h, id⟩)
  | alt t b ht hb hh hl hi hs =>
    refine ⟨fun u c hu hc => ?_, fun c he hc => ?_, fun hn => ?_⟩
    · rw [ht u] at hc
      split at hc
      · cases hc; exact hb
      · exact ka _ (s.side u c hu hc)
    · rw [ht 0] at he hc ⊢
      split at hc
      · rename_i e; cases hc; exact .inl hb
      · rename_i e
        rw [if_neg e] at he ⊢
        rcases s.main c he hc with g | g
        · exact .inl (ka _ g)
        · exact .inr g
    · rw [hl] at hn
      obtain ⟨g1, g2⟩ := s.new hn
      rw [ht 0]
      split
      · rename_i e; subst e
        exact ⟨g1, fun c hc => by cases hc; exact hb⟩
      · exact ⟨g1, fun b hb => ka _ (g2 b hb)⟩
  | none a ht hh hl hi hs =>
    exact s.keep ka (fun u => by rw [ht]) (by rw [ht]; exact id) (fun r _ hr => ⟨r, by rw [ht]; exact hr, rfl⟩) (by rw [hl, ht]; exact fun h => ⟨h, id⟩)

theorem reach_invA {p : W → Act → Prop} {w : W} (r : Reach p w) : InvA w := by
  induction r with
  | init => constructor <;> simp [init, early]
  | step r _ h ih => exact step_invA (reach_inv r) (reach_invS r) ih h

theorem onStack_ok {w : W} {h : Th} (hh : ∀ b, h.alt = some b → w.heap b ≠ none) : onStack w h = w := by
  unfold onStack
  split
  · rfl
  · rename_i b e; rw [if_neg (hh b e)]

theorem deliver_ok {w : W} {t n : Nat} (h1 : w.handler n = .neco → (w.th t).rt ≠ none)
    (h2 : stacked (w.handler n) = true → ∀ b, (w.th t).alt = some b → w.heap b ≠ none) : (deliver w t n).sigfault = w.sigfault := by
  unfold deliver
  cases hd : w.handler n with
  | dfl => rfl
  | ign => rfl
  | user k o =>
    cases o with
    | false => rfl
    | true => show (onStack w (w.th t)).sigfault = _; rw [onStack_ok (h2 (by rw [hd]; rfl))]
  | neco =>
    show (sighandler (onStack w (w.th t)) t n).sigfault = _
    rw [onStack_ok (h2 (by rw [hd]; rfl))]
    unfold sighandler
    split
    · rename_i e; exact absurd e (h1 hd)
    · repeat' split
      all_goals rfl

/-- the alternate stack of a thread is allocated -/
theorem alt_live {w : W} (i : Inv w) (s : InvA w) : ∀ t, (t = 0 → early (w.th t).pc = true ∨ Ev.call 0 ∉ w.log) → ∀ b, (w.th t).alt = some b →
    w.heap b ≠ none := by
  intro t h0 b hb
  by_cases e : t = 0
  · subst e
    rcases h0 rfl with h0 | h0
    · rcases s.main b h0 hb with g | ⟨r, hr, hs⟩
      · rw [g]; simp
      · have : w.heap b = some (.rt 0) := ((rtm_inv i hr).2.1 b).mpr (by
          have : afterS (w.th 0).pc = false := by
            cases hp : (w.th 0).pc <;> rw [hp] at h0 <;> simp_all [early, afterS]
          simp [blocks, sigB, this, hs])
        rw [this]; simp
    · rw [(s.new h0).2 b hb]; simp
  · rw [s.side t b e hb]; simp

theorem step_sigfault {w w' : W} {a : Act} (i : Inv w) (s : InvA w) (hc : Calm w a) (h : step w a = some w') : w'.sigfault = w.sigfault := by
  have live := alt_live i s
  cases step_cases i h with
  | tau t ok r hr k tk => exact k.sigfault
  | callNo t hp ht hh hl hi hs => exact hs
  | call t b hp ht hh hl hi hs => exact hs
  | rt a t r r' hr h1 h2 h3 ht hh hl hi hs =>
    rcases hs with hs | hs
    · subst hs
      simp only [step] at h
      split at h
      · cases h
      cases h
      exact deliver_ok hc.1 (fun hs => live t (fun e => hc.2 e hs))
    · exact hs
  | finish t r hr hp ht hh hl hi hs => exact hs
  | signal t n hw => rw [hw]; exact deliver_ok hc.1 (fun hs => live t (fun e => hc.2 e hs))
  | sigaction n d hd ht hh hl hi hs => exact hs
  | alt t b ht hb hh hl hi hs => exact hs
  | none a ht hh hl hi hs =>
    rcases hs with hs | ⟨t', n', e, hn⟩
    · exact hs
    · subst e; exact absurd hn hc

theorem reach_sigfault {p : W → Act → Prop} (hp : ∀ w a, p w a → Calm w a) {w : W} (r : Reach p w) : w.sigfault = false := by
  induction r with
  | init => rfl
  | step r h0 h ih => rw [step_sigfault (reach_inv r) (reach_invA r) (hp _ _ h0) h]; exact ih

end Neco.Run
