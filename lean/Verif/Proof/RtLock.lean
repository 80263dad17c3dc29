import Verif.Spec.Lock
import Verif.Proof.RtAdds
import Verif.Proof.RtCall
import Verif.Proof.RtFrame
/-!
# The lock word of a mutex agrees with the history
-/
namespace Neco.Rt
open Neco.Err

theorem Disciplined.tail {e : Ev} {l : List Ev} (h : Disciplined (e :: l)) : Disciplined l :=
  fun a b m i he => h (e :: a) b m i (by rw [he]; rfl)
theorem Disciplined.suffix {a l : List Ev} (h : Disciplined (a ++ l)) : Disciplined l := by
  induction a with
  | nil => exact h
  | cons e a ih => exact ih h.tail

def lockKind : Kind → Bool
  | .grant | .release => true
  | _ => false

theorem holders_cons {m : Nat} {e : Ev} {l : List Ev} (h : lockKind e.kind = false) : holders m (e :: l) = holders m l := by
  cases e <;> first | rfl | simp [Ev.kind, lockKind] at h

theorem holders_append {m : Nat} {a l : List Ev} (h : ∀ e ∈ a, lockKind e.kind = false) : holders m (a ++ l) = holders m l := by
  induction a with
  | nil => rfl
  | cons e a ih => rw [List.cons_append, holders_cons (h e (by simp)), ih (fun e he => h e (by simp [he]))]

theorem holders_adds {ks : List Kind} {s t : S} (h : Adds ks s t) (hk : ∀ k ∈ ks, lockKind k = false) (m : Nat) : holders m t.log = holders m s.log := by
  obtain ⟨es, e, h⟩ := h
  rw [e, holders_append (fun e he => hk _ (h e he))]

@[local simp] theorem holders_note (k : Nat) (s : S) (e : Ev) : holders k (note s e).log = holders k (e :: s.log) := rfl

/-- the lock word `x` says what the holders `h` are -/
structure MuOk (h : List (Nat × Bool)) (x : Mu) : Prop where
  free : x.locked = false → h = [] ∧ x.rlocked = 0
  wr : x.locked = true → x.rlocked = 0 → ∃ i, h = [(i, false)]
  rd : x.rlocked ≠ 0 → x.locked = true ∧ h.length = x.rlocked ∧ ∀ e ∈ h, e.2 = true

theorem MuOk.grantW {h : List (Nat × Bool)} {x : Mu} (o : MuOk h x) (hl : x.locked = false) (i : Nat) : MuOk ((i, false) :: h) { x with locked := true } := by
  obtain ⟨e, e2⟩ := o.free hl
  subst e
  exact ⟨by simp, fun _ _ => ⟨i, rfl⟩, fun h => absurd e2 h⟩

theorem MuOk.grantR {h : List (Nat × Bool)} {x : Mu} (o : MuOk h x) (hl : x.rlocked ≠ 0 ∨ x.locked = false) (i : Nat) :
    MuOk ((i, true) :: h) { locked := true, rlocked := x.rlocked + 1 } := by
  refine ⟨by simp, by simp, fun _ => ⟨rfl, ?_, ?_⟩⟩
  · rcases hl with h1 | h1
    · simp [(o.rd h1).2.1]
    · simp [(o.free h1).1, (o.free h1).2]
  · intro e he
    simp only [List.mem_cons] at he
    rcases he with rfl | he
    · rfl
    · rcases hl with h1 | h1
      · exact (o.rd h1).2.2 e he
      · rw [(o.free h1).1] at he; cases he

theorem MuOk.release {h : List (Nat × Bool)} {x : Mu} (o : MuOk h x) {i : Nat} {rd : Bool} (hi : (i, rd) ∈ h) :
    x.locked = true ∧ (1 < x.rlocked → MuOk (h.eraseP (fun e => e.1 == i)) { x with rlocked := x.rlocked - 1 }) ∧
      (x.rlocked ≤ 1 → h.eraseP (fun e => e.1 == i) = []) := by
  have hl : x.locked = true := by
    cases hl : x.locked with
    | true => rfl
    | false => rw [(o.free hl).1] at hi; cases hi
  have hlen : (h.eraseP (fun e => e.1 == i)).length = h.length - 1 :=
    List.length_eraseP_of_mem hi (by simp)
  refine ⟨hl, fun h1 => ⟨by simp [hl], fun _ h2 => ?_, fun h2 => ⟨hl, ?_, ?_⟩⟩, fun h1 => ?_⟩
  · simp at h2; omega
  · rw [hlen, (o.rd (by omega)).2.1]
  · intro e he
    exact (o.rd (by omega)).2.2 e (List.mem_of_mem_eraseP he)
  · apply List.eq_nil_of_length_eq_zero
    rw [hlen]
    by_cases h0 : x.rlocked = 0
    · obtain ⟨j, e⟩ := o.wr hl h0
      rw [e]; rfl
    · rw [(o.rd h0).2.1]; omega

def LockOk (s : S) (m : Nat) : Prop := MuOk (holders m s.log) (s.mu m)

theorem LockOk.of {s t : S} {m : Nat} (h : LockOk s m) (h1 : t.mu m = s.mu m) (h2 : holders m t.log = holders m s.log) : LockOk t m := by
  unfold LockOk; rw [h1, h2]; exact h

theorem handoff_ok {m : Nat} (q : List Node) (t : S) (hq : q ≠ []) (hl : (t.mu m).locked = true)
    (hh : (holders m t.log).length = (t.mu m).rlocked ∧ ∀ e ∈ holders m t.log, e.2 = true)
    (hf : holders m t.log = [] ∨ ∃ n q', q = n :: q' ∧ (t.co n.owner).rlocked = true) : LockOk (handoff t m q) m := by
  induction q generalizing t with
  | nil => exact absurd rfl hq
  | cons n q ih =>
    have key : ∀ u : S, u = note (setMu (schedResume (setList t (.muQ m) q) n.owner) m { (t.mu m) with rlocked := (t.mu m).rlocked + 1 }) (.grant m n.owner true) →
        (u.mu m).locked = true ∧ (u.mu m).rlocked = (t.mu m).rlocked + 1 ∧ holders m u.log = (n.owner, true) :: holders m t.log := by
      intro u e; subst e
      simp [setMu, hl, holders]
    unfold handoff
    dsimp only
    have ec : ((schedResume (setList t (.muQ m) q) n.owner).co n.owner).rlocked = (t.co n.owner).rlocked := by simp
    have em : (schedResume (setList t (.muQ m) q) n.owner).mu m = t.mu m := by simp
    rw [ec, em]
    split
    · rename_i hr
      obtain ⟨k1, k2, k3⟩ := key _ rfl
      generalize note (setMu (schedResume (setList t (.muQ m) q) n.owner) m { (t.mu m) with rlocked := (t.mu m).rlocked + 1 }) (.grant m n.owner true) = u at *
      have hu : (holders m u.log).length = (u.mu m).rlocked ∧ ∀ e ∈ holders m u.log, e.2 = true := by
        rw [k3, k2]
        refine ⟨by simp [hh.1], fun e he => ?_⟩
        simp only [List.mem_cons] at he
        rcases he with rfl | he
        · rfl
        · exact hh.2 e he
      have ok : LockOk u m := ⟨by simp [k1], by simp [k2], fun _ => ⟨k1, hu.1, hu.2⟩⟩
      split
      · exact ok
      · rename_i n' q'
        split
        · rename_i hr'
          exact ih u (by simp) k1 hu (.inr ⟨n', q', rfl, hr'⟩)
        · exact ok
    · rename_i hr
      rcases hf with hf | ⟨_, _, e, hr'⟩
      · have e0 : (t.mu m).rlocked = 0 := by rw [← hh.1, hf]; rfl
        have e1 : (note (schedResume (setList t (.muQ m) q) n.owner) (.grant m n.owner false)).mu m = t.mu m := by simp
        have e2 : holders m (note (schedResume (setList t (.muQ m) q) n.owner) (.grant m n.owner false)).log = (n.owner, false) :: holders m t.log := by simp [holders]
        unfold LockOk
        rw [e1, e2, hf]
        exact ⟨by simp [hl], fun _ _ => ⟨_, rfl⟩, fun h => absurd e0 h⟩
      · cases e; exact absurd hr' hr

theorem handoff_frame {m k : Nat} (hk : k ≠ m) (q : List Node) (t : S) : (handoff t m q).mu k = t.mu k ∧ holders k (handoff t m q).log = holders k t.log := by
  induction q generalizing t with
  | nil => exact ⟨rfl, rfl⟩
  | cons n q ih =>
    unfold handoff
    dsimp only
    split
    · split
      · simp [setMu, hk, holders, Ne.symm hk]
      · split
        · rw [(ih _).1, (ih _).2]; simp [setMu, hk, holders, Ne.symm hk]
        · simp [setMu, hk, holders, Ne.symm hk]
    · simp [holders, Ne.symm hk]

theorem fastUnlock_ok {s : S} {i m : Nat} {rd : Bool} (h : ∀ k, LockOk s k) (hi : (i, rd) ∈ holders m s.log) (k : Nat) : LockOk (fastUnlock (note s (.release m i)) m) k := by
  have o := (h m).release hi
  have e1 : holders m (note s (.release m i)).log = (holders m s.log).eraseP (fun e => e.1 == i) := by simp [holders]
  have hk : k ≠ m → LockOk (note s (.release m i)) k := fun hk => (h k).of rfl (by simp [holders, Ne.symm hk])
  unfold fastUnlock
  simp only [note_mu, o.1, Bool.true_eq_false, if_false]
  split
  · rename_i h1
    by_cases e : k = m
    · subst e
      have := o.2.1 h1
      unfold LockOk
      simp only [o.1] at this
      rw [← e1] at this
      simpa [setMu] using this
    · exact (hk e).of (by simp [setMu, e]) rfl
  · rename_i h1
    have h0 := o.2.2 (by omega)
    split
    · by_cases e : k = m
      · subst e
        unfold LockOk
        simp only [setMu, if_true]
        exact ⟨fun _ => ⟨by rw [← h0]; exact e1, rfl⟩, by simp, by simp⟩
      · exact (hk e).of (by simp [setMu, e]) rfl
    · rename_i hq
      by_cases e : k = m
      · subst e
        refine handoff_ok _ _ hq (by simp [setMu, o.1]) ?_ (.inl (e1.trans h0))
        rw [show holders k (setMu (note s (.release k i)) k _).log = [] from e1.trans h0]; simp [setMu]
      · exact (hk e).of (by rw [(handoff_frame e _ _).1]; simp [setMu, e]) (by rw [(handoff_frame e _ _).2]; rfl)

def InvLk (s : S) : Prop := Disciplined s.log → ∀ m, LockOk s m

theorem grant_ok {s t : S} {m i : Nat} {rd : Bool} {x : Mu} (h : ∀ k, LockOk s k) (ht : t.mu = fun k => if k = m then x else s.mu k) (hl : t.log = .grant m i rd :: s.log)
    (ho : MuOk ((i, rd) :: holders m s.log) x) (k : Nat) : LockOk t k := by
  by_cases e : k = m
  · subst e
    unfold LockOk
    rw [ht, hl]; simpa [holders] using ho
  · exact (h k).of (by rw [ht]; simp [e]) (by rw [hl]; simp [holders, Ne.symm e])

theorem rdBusy_false {s : S} {m : Nat} (h : rdBusy s m = false) : s.lists (.muQ m) = [] ∧ ((s.mu m).rlocked ≠ 0 ∨ (s.mu m).locked = false) := by
  unfold rdBusy at h
  simp only [Bool.or_eq_false_iff, Bool.not_eq_false', List.isEmpty_iff, Bool.and_eq_false_iff, beq_eq_false_iff_ne] at h
  exact h

theorem muRdlock_ok {s : S} {i m : Nat} {dl : Int} (h : ∀ k, LockOk s k) (k : Nat) : LockOk (muRdlock s i m dl) k := by
  unfold muRdlock
  split
  · exact (h k).of (by simp) (by simp)
  · dsimp only
    split
    · exact (h k).of (by simp) (by simp)
    · rename_i hb
      have hb := rdBusy_false (Bool.eq_false_iff.mpr hb)
      simp only [dlClear_mu] at hb
      exact grant_ok h (by simp [setMu]) (by rfl) ((h m).grantR hb.2 i) k

theorem muLock_ok {s : S} {i m : Nat} {dl : Int} (h : ∀ k, LockOk s k) (k : Nat) : LockOk (muLock s i m dl) k := by
  unfold muLock
  split
  · exact (h k).of (by simp) (by simp)
  · dsimp only
    split
    · exact (h k).of (by simp) (by simp)
    · rename_i hb
      simp only [dlClear_mu, Bool.not_eq_true] at hb
      exact grant_ok h (by simp [setMu]) (by rfl) ((h m).grantW hb i) k

theorem muTrylock_ok {s : S} {i m : Nat} (h : ∀ k, LockOk s k) (k : Nat) : LockOk (muTrylock s i m) k := by
  unfold muTrylock
  split
  · exact (h k).of (by simp) (by simp)
  · rename_i hb
    exact grant_ok h (by simp [setMu]) (by rfl) ((h m).grantW (by simpa using hb) i) k

theorem muTryrdlock_ok {s : S} {i m : Nat} (h : ∀ k, LockOk s k) (k : Nat) : LockOk (muTryrdlock s i m) k := by
  unfold muTryrdlock
  split
  · exact (h k).of (by simp) (by simp)
  · rename_i hb
    exact grant_ok h (by simp [setMu]) (by rfl) ((h m).grantR (rdBusy_false (Bool.eq_false_iff.mpr hb)).2 i) k

theorem doRelock_ok {s : S} {i m : Nat} (h : ∀ k, LockOk s k) (k : Nat) : LockOk (doRelock s i m) k := by
  unfold doRelock
  split
  · rename_i hb
    exact grant_ok h (by simp [setMu]) (by rfl) ((h m).grantW hb i) k
  · split
    · exact (h k).of (by simp) (by simp [holders])
    · split
      · exact (h k).of (by simp) (by simp)
      · exact (h k).of (by simp) (by simp)

theorem muUnlock_log (s : S) (i m : Nat) : (muUnlock s i m).log = (fastUnlock (note s (.release m i)) m).log := by unfold muUnlock; split <;> simp
theorem muUnlock_mu (s : S) (i m : Nat) : (muUnlock s i m).mu = (fastUnlock (note s (.release m i)) m).mu := by unfold muUnlock; split <;> simp

theorem fastUnlock_adds' (s : S) (m : Nat) : ∃ es, (fastUnlock s m).log = es ++ s.log := by
  obtain ⟨es, h, _⟩ := fastUnlock_adds s m
  exact ⟨es, h⟩

theorem muUnlock_ok {s : S} {i m : Nat} (h : ∀ k, LockOk s k) (hd : Disciplined (muUnlock s i m).log) (k : Nat) : LockOk (muUnlock s i m) k := by
  rw [muUnlock_log] at hd
  obtain ⟨es, e⟩ := fastUnlock_adds' (note s (.release m i)) m
  rw [e] at hd
  obtain ⟨rd, hi⟩ := hd.suffix [] s.log m i rfl
  exact (fastUnlock_ok h hi k).of (by rw [muUnlock_mu]) (by rw [muUnlock_log])

theorem cvWait_ok {s : S} {i v m : Nat} {dl : Int} (h : ∀ k, LockOk s k) (hd : Disciplined (cvWait s i v m dl).log) (k : Nat) : LockOk (cvWait s i v m dl) k := by
  unfold cvWait at hd ⊢
  split
  · exact (h k).of (by simp) (by simp)
  · rename_i hc
    rw [if_neg hc] at hd
    have hd' : Disciplined (fastUnlock (note s (.release m i)) m).log := by
      split at hd <;> simpa using hd
    obtain ⟨es, e⟩ := fastUnlock_adds' (note s (.release m i)) m
    rw [e] at hd'
    obtain ⟨rd, hi⟩ := hd'.suffix [] s.log m i rfl
    have := fastUnlock_ok h hi k
    split <;> exact this.of (by simp) (by simp)

/-- the calls that may change a lock word at once -/
def Call.muCall : Call → Bool
  | .lock _ _ | .rdlock _ _ | .trylock _ | .tryrdlock _ | .unlock _ | .cvWait _ _ _ => true
  | _ => false

theorem doCall_mu (s : S) (i : Nat) (c : Call) (h : c.muCall = false) : (doCall s i c).mu = s.mu := by
  cases c <;> first | (simp [Call.muCall] at h; done) | skip
  case chRetain => simp only [doCall]; split <;> simp
  all_goals first | rfl | simp [doCall] | skip

theorem afterBlk_mu (s : S) (i : Nat) (b : Blk) : (afterBlk s i b).mu = s.mu := by
  cases b <;> simp only [afterBlk] <;> (repeat' split) <;> simp

theorem tauCo_mu {s s' : S} {i : Nat} (hs : tauCo s i = some s') (h : (s.co i).pc ≠ .relock) : s'.mu = s.mu := by
  unfold tauCo at hs
  split at hs
  all_goals first | (exact absurd ‹_› h) | skip
  all_goals (repeat' split at hs) <;> cases hs <;> first | rfl | simp [afterBlk_mu]

theorem tauMain_mu {s s' : S} (h : tauMain s = some s') : s'.mu = s.mu := by
  unfold tauMain at h
  (repeat' split at h) <;> cases h <;> first | rfl | simp

/-- when a step can change a lock word -/
theorem step_mu {s s' : S} {a : Act} (hs : step s a = some s') : (s'.mu = s.mu ∧ ∀ m, holders m s'.log = holders m s.log) ∨ (∃ i c, a = .call c ∧ s.sco.cur = some i ∧ c.muCall = true ∧ s' = doCall (callSt s i c) i c) ∨
    (∃ i v m dl, a = .tau ∧ s.sco.cur = some i ∧ (s.co i).pc = .relock ∧ (s.co i).call = .cvWait v m dl ∧ s' = doRelock s i m) := by
  have hs0 := hs
  have quiet : s'.mu = s.mu → (∀ k ∈ stepKinds s a, lockKind k = false) → s'.mu = s.mu ∧ ∀ m, holders m s'.log = holders m s.log := fun h1 h2 => ⟨h1, holders_adds (step_adds hs0) h2⟩
  unfold step at hs
  split at hs
  · cases hs
  cases a with
  | call c =>
    obtain ⟨i, h1, h2, h3, h4⟩ := step_call hs0
    cases hm : c.muCall with
    | true => exact .inr (.inl ⟨i, c, rfl, h1, hm, h4⟩)
    | false =>
      refine .inl (quiet (by rw [h4, doCall_mu _ _ _ hm]; rfl) ?_)
      cases c <;> simp [Call.muCall] at hm <;> simp [stepKinds, callKinds, lockKind]
  | finish => simp only at hs; (repeat' split at hs) <;> cases hs <;> exact .inl (quiet rfl (by simp [stepKinds]))
  | tau =>
    simp only at hs
    split at hs
    · rename_i i hc
      by_cases hp : (s.co i).pc = .relock
      · unfold tauCo at hs; rw [hp] at hs; simp only at hs
        split at hs <;> cases hs
        · rename_i v m dl hcl; exact .inr (.inr ⟨i, v, m, dl, rfl, hc, hp, hcl, rfl⟩)
        · exact .inl ⟨rfl, fun _ => rfl⟩
      · refine .inl (quiet (tauCo_mu hs hp) ?_)
        simp only [stepKinds, hc]; unfold pcKinds; split <;> first | (exact absurd ‹_› hp) | simp [lockKind]
    · rename_i hc
      refine .inl (quiet (tauMain_mu hs) ?_)
      simp only [stepKinds, hc]; unfold mainKinds; split <;> simp [lockKind]
  | submit ok => simp only at hs; (repeat' split at hs) <;> cases hs <;> exact .inl (quiet rfl (by simp [stepKinds]))
  | events evs =>
    simp only at hs; split at hs <;> cases hs
    refine .inl (quiet ?_ (by simp [stepKinds, lockKind])); show (if s.nevwaiters > 0 then mEvents s evs else s).mu = _; split <;> simp
  | clock t => simp only at hs; split at hs <;> cases hs; exact .inl (quiet rfl (by simp [stepKinds]))
  | signal n => simp only at hs; (repeat' split at hs) <;> cases hs <;> exact .inl (quiet rfl (by simp [stepKinds, lockKind]))
  | wdone i => simp only at hs; split at hs <;> cases hs; exact .inl (quiet rfl (by simp [stepKinds, lockKind]))

theorem InvLk.step {s s' : S} {a : Act} (h : InvLk s) (hs : Rt.step s a = some s') : InvLk s' := by
  intro hd k
  obtain ⟨es, hes⟩ := step_suffix hs
  have hd0 : Disciplined s.log := by rw [hes] at hd; exact hd.suffix
  have ho := h hd0
  rcases step_mu hs with ⟨e, e2⟩ | ⟨i, c, ha, hc, hm, e⟩ | ⟨i, v, m, dl, ha, hc, hp, hcl, e⟩
  · exact (ho k).of (by rw [e]) (e2 k)
  · subst e
    have ho1 : ∀ k, LockOk (callSt s i c) k := fun k => (ho k).of rfl rfl
    clear hs hes ho h
    generalize callSt s i c = t at *
    cases c <;> simp [Call.muCall] at hm
    case lock m dl => exact muLock_ok ho1 k
    case rdlock m dl => exact muRdlock_ok ho1 k
    case trylock m => exact muTrylock_ok ho1 k
    case tryrdlock m => exact muTryrdlock_ok ho1 k
    case unlock m => exact muUnlock_ok ho1 hd k
    case cvWait v m dl => exact cvWait_ok ho1 hd k
  · subst e; exact doRelock_ok ho k

theorem reach_invLk {ok} {s : S} (r : Reach ok s) : InvLk s := by
  induction r with
  | init a e => intro _ m; exact ⟨fun _ => ⟨rfl, rfl⟩, by simp [init], by simp [init]⟩
  | step h a ho hs ih => exact ih.step hs

end Neco.Rt
