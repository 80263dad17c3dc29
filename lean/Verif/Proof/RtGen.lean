import Verif.Proof.RtRecv
/-!
# Who closes channels
-/
namespace Neco.Rt
open Neco.Err

/-- the channels of `t` are channels of `s`, equally closed for sending -/
structure ScLe (s t : S) : Prop where
  le : ∀ k ch, t.chan k = some ch → ∃ c0, s.chan k = some c0 ∧ ch.sclosed = c0.sclosed
theorem ScLe.trans {s t u : S} (h : ScLe s t) (g : ScLe t u) : ScLe s u := by
  refine ⟨fun k ch e => ?_⟩
  obtain ⟨c1, e1, e2⟩ := g.le k ch e
  obtain ⟨c0, e3, e4⟩ := h.le k c1 e1
  exact ⟨c0, e3, e2.trans e4⟩
theorem FlLe.sc {s t : S} (h : FlLe s t) : ScLe s t := ⟨fun k ch e => by obtain ⟨c0, e1, e2, _⟩ := h.le k ch e; exact ⟨c0, e1, e2⟩⟩
theorem ScLe.same {s t : S} (h : t.chan = s.chan) : ScLe s t := (FlLe.same h).sc
theorem ScLe.post {s t u : S} (h : ScLe s t) (g : u.chan = t.chan) : ScLe s u := h.trans (.same g)
theorem ScLe.core {s t : S} (h : ∀ k, (t.chan k).map core = (s.chan k).map core) : ScLe s t := (FlLe.core h).sc

theorem recvNow_sc {s t : S} {c r : Nat} {ch : Chan} {m : Msg} {o : Option Nat} (hc : s.chan c = some ch) (h : recvNow s c r ch = some (m, o, t)) : ScLe s t := by
  refine ⟨fun k x e => ?_⟩
  unfold recvNow at h
  (repeat' split at h) <;> first
    | (simp at h; done)
    | (simp at h; obtain ⟨_, _, rfl⟩ := h
       first
       | exact ⟨x, e, rfl⟩
       | (by_cases hk : k = c
          · subst hk
            simp [setChan] at e; subst e
            exact ⟨ch, hc, rfl⟩
          · simp [setChan, hk] at e
            exact ⟨x, e, rfl⟩))

theorem chanRecv_sc {s : S} {i c : Nat} {tr : Bool} {dl : Int} : ScLe s (chanRecv s i c tr dl) := by
  unfold chanRecv
  split
  · exact .same rfl
  rename_i ch hc
  split
  · exact .same rfl
  split
  · exact .same rfl
  split
  · rename_i hr
    exact (recvNow_sc hc hr).post (by simp)
  · split
    · exact .same rfl
    · exact ((FlLe.same (s := s) (t := push s (.chanQ c) (.co i)) (by simp)).set (ch' := { ch with qrecv := true }) hc ⟨rfl, rfl⟩).sc.post (by simp)

theorem chanSelect_sc {s : S} {i : Nat} {cs : List Nat} {tr : Bool} {dl : Int} : ScLe s (chanSelect s i cs dl tr) := by
  unfold chanSelect
  split
  · exact .same rfl
  split
  · exact .same rfl
  split
  · split
    · exact .same rfl
    rename_i kk c _ _ ch hc
    split
    · exact .same rfl
    split
    · rename_i m o u hr
      refine (recvNow_sc hc hr).trans (.core fun k => ?_)
      simp only [resumeOpt_chan, setPc_chan]
      split
      · rename_i e; subst e; cases u.chan k <;> rfl
      · rfl
    · exact .same rfl
  · split
    · exact .same rfl
    · refine ScLe.post (t := selPush (upd s i (fun k => { k with retIdx := -1 })) i 0 cs) ?_ (by simp)
      constructor
      intro k ch e
      rw [selPush_chan] at e
      split at e
      · cases hx : s.chan k with
        | none => simp [hx] at e
        | some y => simp [hx] at e; subst e; exact ⟨y, rfl, rfl⟩
      · exact ⟨ch, e, rfl⟩

theorem chanClose1_sc {s : S} {i c : Nat} {ch : Chan} {a : Aft} {k : Nat} (hk : k ≠ c) {x : Chan} (e : (chanClose1 s i c ch a).chan k = some x) :
    ∃ y, s.chan k = some y ∧ x.sclosed = y.sclosed := by
  unfold chanClose1 at e; dsimp only at e
  split at e
  · simp [setChan, hk] at e; exact ⟨x, e, rfl⟩
  · have e' : (closeEnd (closeLoop (setChan s c { ch with sclosed := true }) c ((setChan s c { ch with sclosed := true }).lists (.chanQ c))) c).chan k = some x := by simpa using e
    unfold closeEnd at e'; dsimp only at e'
    rw [if_neg hk] at e'
    obtain ⟨c0, g1, g2⟩ := chan_core (closeLoop_core (setChan s c { ch with sclosed := true }) c ((setChan s c { ch with sclosed := true }).lists (.chanQ c)) k) e'
    simp only [setChan, if_neg hk] at g1
    simp only [Rt.core, Prod.mk.injEq] at g2
    exact ⟨c0, g1, g2.1.symm⟩

theorem exitNotify_sc {s : S} {i : Nat} {a : Bool} {k : Nat} {x : Chan} (e : (exitNotify s i a).chan k = some x) :
    (∃ y, s.chan k = some y ∧ x.sclosed = y.sclosed) ∨ (s.co i).gen = some k := by
  generalize ht : exitNotify s i a = t at e
  unfold exitNotify at ht
  extract_lets t1 qc t2 qj t3 sched at ht
  have hch : t3.chan = s.chan := by simp [t3, t2, t1]
  have hco : t3.co = s.co := by simp [t3, t2, t1]
  rw [← hch, ← hco]
  split at ht
  · subst ht; exact .inl ⟨x, e, rfl⟩
  split at ht
  · subst ht; exact .inl ⟨x, e, rfl⟩
  split at ht
  · subst ht; exact .inl ⟨x, e, rfl⟩
  · rename_i g hg _ ch hc hsc
    by_cases hk : k = g
    · right; rw [hk]; exact hg
    · subst ht; exact .inl (chanClose1_sc hk e)

/-- a step that closes a channel is a call of `neco_chan_close`, or a generator exits -/
theorem step_sclosed {s s' : S} {a : Act} (hs : step s a = some s') {k : Nat} {x : Chan} (e : s'.chan k = some x) (hx : x.sclosed = true) :
    (∃ y, s.chan k = some y ∧ y.sclosed = true) ∨ (a = .call (.close k)) ∨ ∃ i, s.sco.cur = some i ∧ (s.co i).gen = some k := by
  have keep : ScLe s s' → (∃ y, s.chan k = some y ∧ y.sclosed = true) ∨ (a = .call (.close k)) ∨ ∃ i, s.sco.cur = some i ∧ (s.co i).gen = some k := by
    intro h
    obtain ⟨y, e1, e2⟩ := h.le k x e
    exact .inl ⟨y, e1, by rw [← e2]; exact hx⟩
  unfold Rt.step at hs
  split at hs
  · cases hs
  cases a with
  | call c =>
    simp only at hs
    split at hs
    · cases hs
    rename_i i hc
    split at hs <;> cases hs
    rename_i hp
    clear hp
    have h0 : ScLe s (callSt s i c) := .same rfl
    by_cases hn : c.noChan = true
    · exact keep (h0.trans (.same (doCall_chan (callSt s i c) i c hn)))
    cases c <;> first | (simp [Call.noChan] at hn; done) | skip
    case send c m dl => exact keep (h0.trans (chanSend_fl ..).sc)
    case bcast c m => exact keep (h0.trans (chanBcast_fl ..).sc)
    case recv c dl => exact keep (h0.trans chanRecv_sc)
    case tryrecv c => exact keep (h0.trans chanRecv_sc)
    case select cs dl => exact keep (h0.trans chanSelect_sc)
    case tryselect cs => exact keep (h0.trans chanSelect_sc)
    case genYield m dl =>
      refine keep (h0.trans (?_ : ScLe (callSt s i _) (doGenYield (callSt s i _) i m dl)))
      unfold doGenYield
      split
      · exact .same rfl
      · exact (chanSend_fl ..).sc
    case close c =>
      by_cases hk : k = c
      · subst hk; exact .inr (.inl rfl)
      · have e' : (chanClose (callSt s i (.close c)) i c).chan k = some x := e
        unfold chanClose at e'
        split at e'
        · exact .inl ⟨x, e', hx⟩
        split at e'
        · exact .inl ⟨x, e', hx⟩
        · obtain ⟨y, e1, e2⟩ := chanClose1_sc hk e'
          exact .inl ⟨y, e1, by rw [← e2]; exact hx⟩
    case chRelease c => exact keep (h0.trans ((chanRelease_fl ..).sc.post rfl))
    case chRetain c =>
      refine keep (h0.trans (?_ : ScLe (callSt s i _) (doCall (callSt s i _) i (.chRetain c))))
      simp only [doCall]; split
      · exact .same rfl
      · rename_i hcc
        refine FlLe.sc (((FlLe.refl (callSt s i (.chRetain c))).set hcc ?_).post rfl); exact ⟨rfl, rfl⟩
    case chMake cap =>
      have e3 : (if k = s.nchan then some ({ cap := cap } : Chan) else s.chan k) = some x := e
      split at e3
      · cases e3; cases hx
      · exact .inl ⟨x, e3, hx⟩
    case genStart =>
      have e3 : (if k = s.nchan then some ({ rc := 1 } : Chan) else s.chan k) = some x := e
      split at e3
      · cases e3; cases hx
      · exact .inl ⟨x, e3, hx⟩
  | finish => simp only at hs; (repeat' split at hs) <;> cases hs <;> exact keep (.same rfl)
  | tau =>
    simp only at hs
    split at hs
    · rename_i i hc
      by_cases h1 : ∃ a b, (s.co i).pc = .go (.genRel a b)
      · obtain ⟨sc, as, hp⟩ := h1
        unfold tauCo at hs; rw [hp] at hs; simp only [doAft] at hs
        split at hs <;> cases hs
        · exact keep ((chanRelease_fl ..).sc.post rfl)
        · exact keep (.same rfl)
      by_cases h2 : ∃ a, (s.co i).pc = .exitRun a
      · obtain ⟨as, hp⟩ := h2
        unfold tauCo at hs; rw [hp] at hs; simp only [doExit] at hs
        have ex : ∀ x', exitNotify s i x' = s' → (∃ y, s.chan k = some y ∧ y.sclosed = true) ∨ (Act.tau = .call (.close k)) ∨ ∃ i, s.sco.cur = some i ∧ (s.co i).gen = some k := by
          intro x' e'
          rw [← e'] at e
          rcases exitNotify_sc e with ⟨y, e1, e2⟩ | h
          · exact .inl ⟨y, e1, by rw [← e2]; exact hx⟩
          · exact .inr (.inr ⟨i, hc, h⟩)
        (repeat' split at hs) <;> cases hs
        · exact keep (.same rfl)
        · exact ex _ rfl
        · exact ex _ rfl
      exact keep (ScLe.core (tauCo_chan hs (fun a b e => h1 ⟨a, b, e⟩) (fun a e => h2 ⟨a, e⟩)))
    · obtain ⟨e1, e2, e3⟩ := tauMain_Q hs
      exact keep (.same e2)
  | submit ok => simp only at hs; (repeat' split at hs) <;> cases hs <;> exact keep (.same rfl)
  | events evs =>
    simp only at hs; split at hs <;> cases hs
    refine keep (.same ?_)
    show (if s.nevwaiters > 0 then mEvents s evs else s).chan = _; split <;> simp
  | clock t => simp only at hs; split at hs <;> cases hs; exact keep (.same rfl)
  | signal n => simp only at hs; (repeat' split at hs) <;> cases hs <;> exact keep (.same rfl)
  | wdone i => simp only at hs; split at hs <;> cases hs; exact keep (.same rfl)

/-! ## Generators and their channels -/

theorem makers_other {e : Ev} (l : List Ev) (h : e.kind ≠ .call) : makers (e :: l) = makers l := by
  cases e <;> first | rfl | exact absurd rfl h
theorem makers_app {ks : List Kind} {es l : List Ev} (h : ∀ e ∈ es, e.kind ∈ ks) (hk : .call ∉ ks) : makers (es ++ l) = makers l := by
  induction es with
  | nil => rfl
  | cons e es ih =>
    rw [List.cons_append, makers_other _ (fun e' => hk (e' ▸ h e List.mem_cons_self)), ih (fun x hx => h x (List.mem_cons_of_mem _ hx))]
theorem makers_made (l : List Ev) : (makers l).length = (made l).length := by
  induction l with
  | nil => rfl
  | cons e l ih =>
    by_cases h : e.kind = .call
    · cases e <;> simp [Ev.kind] at h
      rename_i i c
      cases c <;> first | exact ih | (simp [makers, made, ih])
    · rw [makers_other _ h, made_other _ h]; exact ih

theorem GenChan.cons {c : Nat} {e : Ev} {l : List Ev} (h : GenChan c l) : GenChan c (e :: l) := by
  unfold GenChan at h ⊢
  by_cases hk : e.kind = .call
  · cases e <;> simp [Ev.kind] at hk
    rename_i i cl
    have : c < (makers l).reverse.length := by
      rcases Nat.lt_or_ge c (makers l).reverse.length with h' | h'
      · exact h'
      · rw [List.getElem?_eq_none h'] at h; cases h
    cases cl <;> first | exact h | (simp only [makers, List.reverse_cons]; rw [List.getElem?_append_left this]; exact h)
  · rw [makers_other _ hk]; exact h
theorem GenChan.app {c : Nat} {es l : List Ev} (h : GenChan c l) : GenChan c (es ++ l) := by
  induction es with
  | nil => exact h
  | cons e es ih => exact ih.cons

/-- the generator channels are made by `neco_gen_start` -/
structure InvG (s : S) : Prop where
  co : ∀ j c, (s.co j).gen = some c → GenChan c s.log
  pool : ∀ p ∈ s.pool, ∀ c, p.1.gen = some c → GenChan c s.log
  sc : ∀ k x, s.chan k = some x → x.sclosed = true → (∃ j, .call j (.close k) ∈ s.log) ∨ GenChan k s.log

theorem stat_gen {a b : Co} (h : stat a = stat b) : a.gen = b.gen := by simp only [stat, Prod.mk.injEq] at h; exact h.2.2.2.2.2.2.2.1

theorem callStat_gen (s : S) (j : Nat) (c : Call) (k : Co) : (callStat s j c k).gen = k.gen := by
  unfold callStat; (repeat' split) <;> rfl

theorem InvG.step {ok} {s s' : S} {a : Act} (h : InvG s) (r : Reach ok s) (hs : Rt.step s a = some s') : InvG s' := by
  have hw := reach_scoWF r
  obtain ⟨es, hes⟩ := step_suffix hs
  have hk : ∀ {c}, GenChan c s.log → GenChan c s'.log := by intro c h; rw [hes]; exact h.app
  refine ⟨?_, ?_, ?_⟩
  · intro j c e
    rcases step_stat hw hs j with ⟨h3, h4⟩ | ⟨cl, ha, hc, hp, h3⟩ | ⟨i, g, ha, hi', hj, h3⟩ | ⟨x, ha, hc, hp, h3⟩ | ⟨x, q, ha, hc, hp, hq, h3⟩ | ⟨x, y, ha, hc, hp, h3⟩
    · rw [stat_gen h3] at e; exact hk (h.co j c e)
    · rw [stat_gen h3, callStat_gen] at e; exact hk (h.co j c e)
    · rw [h3] at e
      unfold newCo at e
      have old : ∀ c, g = some c → GenChan c s'.log := by
        intro c hg
        rcases ha with ⟨_, hg'⟩ | ⟨ha, hg'⟩
        · rw [hg'] at hg; cases hg
        · rw [hg'] at hg; cases hg
          subst ha
          obtain ⟨fs, h1, h2⟩ := call_log hs hi'
          have : GenChan s.nchan (.call i .genStart :: s.log) := by
            unfold GenChan; simp only [makers, List.reverse_cons]
            rw [(reach_invK2 r).n, ← makers_made, List.getElem?_append_right (by simp)]; simp
          rw [h1]; exact this.app
      split at e
      · exact old c e
      · rename_i x y hpl
        dsimp only at e
        split at e
        · exact old c e
        · exact hk (h.pool _ (by rw [hpl]; exact List.mem_cons_self) c e)
    · rw [stat_gen h3] at e; exact hk (h.co j c e)
    · rw [stat_gen h3] at e; exact hk (h.co j c e)
    · rw [stat_gen h3] at e; cases e
  · intro p hp c e
    rcases step_pool hs p hp with ⟨q, hq, e'⟩ | ⟨i, x, _, _, e'⟩
    · rw [← e'] at e; exact hk (h.pool q hq c e)
    · rw [e'] at e; exact hk (h.co i c e)
  · intro k x e hx
    rcases step_sclosed hs e hx with ⟨y, e1, e2⟩ | ha | ⟨i, _, h2⟩
    · exact (h.sc k y e1 e2).imp (fun ⟨j, hj⟩ => ⟨j, by rw [hes]; exact List.mem_append_right _ hj⟩) hk
    · subst ha
      obtain ⟨i, hc, _⟩ := step_call hs
      obtain ⟨fs, h1, h2⟩ := call_log hs hc
      exact .inl ⟨i, by rw [h1]; simp⟩
    · exact .inr (hk (h.co i k h2))

theorem reach_invG {ok} {s : S} (r : Reach ok s) : InvG s := by
  induction r with
  | init a e =>
    refine ⟨fun j c e => ?_, fun p hp => by simp [init] at hp, fun k x e => by simp [init] at e⟩
    unfold init at e; dsimp only at e; split at e <;> cases e
  | step h a ho hs ih => exact ih.step h hs

end Neco.Rt
