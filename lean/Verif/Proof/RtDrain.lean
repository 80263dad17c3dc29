import Verif.Proof.RtClose
/-!
# A channel that is closed and drained
-/
namespace Neco.Rt
open Neco.Err

/-- every channel of `t` is one of `s` with the same flags -/
structure FlLe (s t : S) : Prop where
  le : ∀ k ch, t.chan k = some ch → ∃ ch0, s.chan k = some ch0 ∧ ch.sclosed = ch0.sclosed ∧ ch.rclosed = ch0.rclosed

theorem FlLe.refl (s : S) : FlLe s s := ⟨fun _ ch h => ⟨ch, h, rfl, rfl⟩⟩
theorem FlLe.trans {s t u : S} (h : FlLe s t) (g : FlLe t u) : FlLe s u := by
  constructor
  intro k ch e
  obtain ⟨c1, e1, e2⟩ := g.le k ch e
  obtain ⟨c0, e3, e4⟩ := h.le k c1 e1
  exact ⟨c0, e3, e2.1.trans e4.1, e2.2.trans e4.2⟩
theorem FlLe.same {s t : S} (h : t.chan = s.chan) : FlLe s t := ⟨fun _ ch e => ⟨ch, by rw [← h]; exact e, rfl, rfl⟩⟩
theorem FlLe.post {s t u : S} (h : FlLe s t) (g : u.chan = t.chan) : FlLe s u := h.trans (.same g)
theorem FlLe.core {s t : S} (h : ∀ k, (t.chan k).map core = (s.chan k).map core) : FlLe s t := by
  constructor
  intro k ch e
  obtain ⟨c0, e1, e2⟩ := chan_core (h k) e
  simp only [Rt.core, Prod.mk.injEq] at e2; exact ⟨c0, e1, e2.1.symm, e2.2.1.symm⟩
theorem FlLe.set {s t : S} {c : Nat} {ch ch' : Chan} (h : FlLe s t) (hc : s.chan c = some ch) (he : ch'.sclosed = ch.sclosed ∧ ch'.rclosed = ch.rclosed) : FlLe s (setChan t c ch') := by
  constructor
  intro k x e
  simp only [setChan] at e
  split at e
  · rename_i hk; subst hk; cases e; exact ⟨ch, hc, he⟩
  · exact h.le k x e

theorem chanSend_fl (s : S) (i c : Nat) (m : Msg) (dl : Int) : FlLe s (chanSend s i c m dl) := by
  unfold chanSend
  split
  · exact .same rfl
  rename_i ch hc
  split
  · exact .same rfl
  split
  · exact .same rfl
  have h1 : FlLe s (sendTry (note s (.put c i m)) c m ch).1 := .core (sendTry_core (note s (.put c i m)) c m ch)
  dsimp only
  split
  · exact h1.post (by simp)
  · unfold sendRest; split
    · refine (h1.set hc ?_).post (by simp; rfl)
      exact ⟨rfl, rfl⟩
    · refine ((h1.post (u := push (sendTry (note s (.put c i m)) c m ch).1 (.chanQ c) (.co i)) (by simp)).set (ch' := { ch with qrecv := false }) hc ⟨rfl, rfl⟩).post (by simp)
theorem chanBcast_fl (s : S) (i c : Nat) (m : Msg) : FlLe s (chanBcast s i c m) := by
  unfold chanBcast
  split
  · exact .same rfl
  split
  · exact .same rfl
  · refine FlLe.post (t := (bcastTry s c m _).1) ?_ (by simp; rfl)
    unfold bcastTry; split
    · exact .core (fun k => bcastLoop_core _ _ _ _ k)
    · exact .refl s
theorem chanRelease_fl (s : S) (c : Nat) : FlLe s (chanRelease s c) := by
  unfold chanRelease
  split
  · exact .same rfl
  rename_i ch hc
  split
  · constructor; intro k x e; simp at e; exact ⟨x, e.2, rfl, rfl⟩
  · exact (FlLe.refl s).set hc ⟨rfl, rfl⟩

/-- there is still something in the channel, or a blocked sender gave up -/
def Live (c : Nat) (l : List Ev) : Prop := content c l ≠ [] ∨ ∃ j, .withdraw c j ∈ l

def QW (s : S) (k : Nat) : Prop := ∀ ch, s.chan k = some ch → ch.sclosed = true → ch.rclosed = false → Live k s.log

theorem QW.fl {s t : S} (h : ∀ k, QW s k) (hf : FlLe s t) {k : Nat} (hl : Live k s.log → Live k t.log) : QW t k := by
  intro ch e h1 h2
  obtain ⟨c0, e1, e2, e3⟩ := hf.le k ch e
  exact hl (h k c0 e1 (by rw [← e2]; exact h1) (by rw [← e3]; exact h2))

theorem Live.adds {ks : List Kind} {s t : S} (h : Adds ks s t) (hk : ∀ k ∈ ks, msgKind k = false ∨ k = .bcastTo) {c : Nat} (hl : Live c s.log) : Live c t.log := by
  rcases hl with h1 | ⟨j, h1⟩
  · exact .inl (by rw [content_adds h hk]; exact h1)
  · obtain ⟨es, e, _⟩ := h
    exact .inr ⟨j, by rw [e]; exact List.mem_append_right _ h1⟩

theorem chanSend_ow {s : S} {i c k : Nat} {m : Msg} {dl : Int} (hk : c ≠ k) : content k (chanSend s i c m dl).log = content k s.log := by
  unfold chanSend
  split
  · rfl
  rename_i ch hc
  split
  · rfl
  split
  · rfl
  have hl : content k (sendTry (note s (.put c i m)) c m ch).1.log = content k s.log := by
    unfold sendTry; split
    · rcases sendLoop_log (note s (.put c i m)) c m ((note s (.put c i m)).lists (.chanQ c)) with h1 | ⟨r, h1, h2, h3⟩
      · rw [h1.2]; simp [content, hk]
      · rw [h2]; simp [content, hk]
    · simp [content, hk]
  dsimp only
  split
  · simpa using hl
  · unfold sendRest; split
    · simpa using hl
    · simpa using hl

theorem QM.live {s : S} {c : Nat} {ch : Chan} (h : QM s c) (hc : s.chan c = some ch) (hx : ch.buf ≠ [] ∨ (s.lists (.chanQ c) ≠ [] ∧ ch.qrecv = false)) : Live c s.log := by
  left
  obtain ⟨A, h1, h2⟩ := h ch hc
  rw [h1]
  intro e
  obtain ⟨e1, e2⟩ := List.append_eq_nil_iff.mp e
  rcases hx with hx | ⟨hx, hq⟩
  · rw [e1] at h2; exact hx h2.symm
  · unfold offers at e2; simp [hq] at e2; exact hx e2

/-- the channel after a message was taken -/
theorem recvNow_ch {s t : S} {c r : Nat} {ch : Chan} {m : Msg} {o : Option Nat} (hf : t.fault = false) (h : recvNow s c r ch = some (m, o, t)) :
    (∀ k, k ≠ c → t.chan k = s.chan k) ∧ ∃ ch', t.chan c = some ch' ∧ ch'.sclosed = ch.sclosed ∧
      (ch.sclosed = true → ch'.rclosed = false → ch'.buf ≠ [] ∨ (t.lists (.chanQ c) ≠ [] ∧ ch'.qrecv = false)) := by
  unfold recvNow at h
  (repeat' split at h) <;> first
    | (simp at h; done)
    | (simp at h; obtain ⟨_, _, rfl⟩ := h; cases hf; done)
    | (simp at h; obtain ⟨_, _, rfl⟩ := h
       refine ⟨fun k hk => by simp [setChan, hk], _, if_pos rfl, rfl, ?_⟩
       simp_all [setList])

theorem QW.recvNow {s t : S} (h : ∀ k, QW s k) (hu : ∀ k, QOk s k) (hL : InvL s) (hq : ∀ k, QM s k) {c r : Nat} {ch : Chan} (hc : s.chan c = some ch) {m : Msg} {o : Option Nat}
    (hf : t.fault = false) (hr : recvNow s c r ch = some (m, o, t)) (k : Nat) : QW t k := by
  obtain ⟨h1, h2, h3, h4, h5⟩ := recvNow_msg hu hL hq hc hr
  obtain ⟨g1, ch', g2, g3, g4⟩ := recvNow_ch hf hr
  by_cases hk : k = c
  · subst hk
    intro x e e1 e2
    rw [g2] at e; cases e
    exact (h3 k).live g2 (g4 (by rw [← g3]; exact e1) e2)
  · intro x e e1 e2
    rw [g1 k hk] at e
    rcases h k x e e1 e2 with h | ⟨j, h⟩
    · left; rw [h1]; simp only [content]; rw [if_neg (Ne.symm hk)]; exact h
    · right; exact ⟨j, by rw [h1]; exact List.mem_cons_of_mem _ h⟩

theorem QW.post {s t : S} {k : Nat} (h : QW s k) (h1 : (t.chan k).map core = (s.chan k).map core) (h2 : t.log = s.log) : QW t k := by
  intro ch e e1 e2
  obtain ⟨c0, g1, g2⟩ := chan_core h1 e
  simp only [Rt.core, Prod.mk.injEq] at g2
  rw [h2]; exact h c0 g1 (by rw [g2.1]; exact e1) (by rw [g2.2.1]; exact e2)

theorem QW.close1 {s : S} {i c : Nat} {ch : Chan} {a : Aft} (h : ∀ k, QW s k) (hm : QM s c) (hc : s.chan c = some ch) (k : Nat) : QW (chanClose1 s i c ch a) k := by
  unfold chanClose1; dsimp only
  split
  · rename_i hx
    intro x e e1 e2
    have e3 : (if k = c then some { ch with sclosed := true } else s.chan k) = some x := e
    split at e3
    · rename_i hk; subst hk
      simpa using hm.live hc hx
    · simpa using h k x e3 e1 e2
  · intro x e e1 e2
    have hl : (yfsr (closeEnd (closeLoop (setChan s c { ch with sclosed := true }) c ((setChan s c { ch with sclosed := true }).lists (.chanQ c))) c) i 0 a).log = s.log := by simp
    rw [hl]
    have e' : (closeEnd (closeLoop (setChan s c { ch with sclosed := true }) c ((setChan s c { ch with sclosed := true }).lists (.chanQ c))) c).chan k = some x := by simpa using e
    unfold closeEnd at e'; dsimp only at e'
    split at e'
    · cases hz : (closeLoop (setChan s c { ch with sclosed := true }) c ((setChan s c { ch with sclosed := true }).lists (.chanQ c))).chan c with
      | none => rw [hz] at e'; cases e'
      | some y => rw [hz] at e'; simp at e'; subst e'; cases e2
    · rename_i hk
      obtain ⟨c0, g1, g2⟩ := chan_core (closeLoop_core (setChan s c { ch with sclosed := true }) c ((setChan s c { ch with sclosed := true }).lists (.chanQ c)) k) e'
      simp only [setChan, if_neg hk] at g1
      simp only [Rt.core, Prod.mk.injEq] at g2
      exact h k c0 g1 (by rw [g2.1]; exact e1) (by rw [g2.2.1]; exact e2)

theorem step_live {s s' : S} {a : Act} (hs : step s a = some s') (hk : ∀ k ∈ stepKinds s a, msgKind k = false ∨ k = .bcastTo) {c : Nat} (h : Live c s.log) : Live c s'.log :=
  h.adds (step_adds hs) hk

theorem Live.wd {ks : List Kind} {s t : S} (h : Adds ks s t) (hk : ∀ k ∈ ks, msgKind k = false ∨ k = .bcastTo ∨ k = .withdraw) {c : Nat} (hl : Live c s.log) : Live c t.log := by
  obtain ⟨es, h1, h2⟩ := h
  rw [h1]; clear h1
  induction es with
  | nil => exact hl
  | cons e es ih =>
    have ih := ih (fun x hx => h2 x (List.mem_cons_of_mem _ hx))
    have hke := hk _ (h2 e List.mem_cons_self)
    rw [List.cons_append]
    by_cases hw : ∃ j, e = .withdraw c j
    · obtain ⟨j, rfl⟩ := hw; exact .inr ⟨j, List.mem_cons_self⟩
    · rcases ih with ih | ⟨j, ih⟩
      · left
        cases e <;> first | exact ih | (simp [msgKind, Ev.kind] at hke; done) | skip
        rename_i c' j
        simp only [content]; rw [if_neg (by rintro rfl; exact hw ⟨j, rfl⟩)]; exact ih
      · exact .inr ⟨j, List.mem_cons_of_mem _ ih⟩

theorem exitNotify_ch {s t : S} {i : Nat} {a : Bool} (ht : exitNotify s i a = t) {k : Nat} {ch' : Chan} (e : t.chan k = some ch') (e1 : ch'.sclosed = true) (e2 : ch'.rclosed = false) :
    (∃ ch, s.chan k = some ch ∧ ch.sclosed = true ∧ ch.rclosed = false) ∨ ch'.buf ≠ [] ∨ (t.lists (.chanQ k) ≠ [] ∧ ch'.qrecv = false) := by
  unfold exitNotify at ht
  extract_lets t1 qc t2 qj t3 sched at ht
  have hch : t3.chan = s.chan := by simp [t3, t2, t1]
  rw [← hch]
  split at ht
  · subst ht; exact .inl ⟨ch', e, e1, e2⟩
  split at ht
  · subst ht; exact .inl ⟨ch', e, e1, e2⟩
  split at ht
  · subst ht; exact .inl ⟨ch', e, e1, e2⟩
  · rename_i g _ _ ch hc hsc
    unfold chanClose1 at ht; dsimp only at ht
    split at ht
    · rename_i hx
      subst ht
      have e3 : (if k = g then some { ch with sclosed := true } else t3.chan k) = some ch' := e
      split at e3
      · rename_i hk; subst hk; injection e3 with e3; subst e3; exact .inr hx
      · exact .inl ⟨ch', e3, e1, e2⟩
    · subst ht
      left
      have e' : (closeEnd (closeLoop (setChan t3 g { ch with sclosed := true }) g ((setChan t3 g { ch with sclosed := true }).lists (.chanQ g))) g).chan k = some ch' := by simpa using e
      unfold closeEnd at e'; dsimp only at e'
      split at e'
      · cases hz : (closeLoop (setChan t3 g { ch with sclosed := true }) g ((setChan t3 g { ch with sclosed := true }).lists (.chanQ g))).chan g with
        | none => rw [hz] at e'; cases e'
        | some y => rw [hz] at e'; simp at e'; subst e'; cases e2
      · rename_i hk
        obtain ⟨c0, g1, g2⟩ := chan_core (closeLoop_core (setChan t3 g { ch with sclosed := true }) g ((setChan t3 g { ch with sclosed := true }).lists (.chanQ g)) k) e'
        simp only [setChan, if_neg hk] at g1
        simp only [Rt.core, Prod.mk.injEq] at g2
        exact ⟨c0, g1, by rw [g2.1]; exact e1, by rw [g2.2.1]; exact e2⟩

/-- what is known when a call starts -/
structure Ctx (t : S) (i : Nat) : Prop where
  fr : Free t i
  L : InvL t
  Q : ∀ k, QOk t k
  M : ∀ k, QM t k

theorem call_ctx {ok} {s : S} (r : Reach ok s) (hf : s.fault = false) {i : Nat} (hu : (s.co i).pc = .user) (c : Call) : Ctx (callSt s i c) i := by
  have hL := reach_invL r
  have hfr : Free s i := hL.free (by rw [hu]; rfl)
  refine ⟨hfr, (hL.congr (t := note s (.call i c)) rfl (fun _ => rfl) (Nat.le_refl _) rfl).updFree hfr _, fun k => ?_, fun k => ?_⟩
  · exact ((reach_invC r).ok hf k).mono rfl (List.Sublist.refl _) (fun n _ => by unfold callSt; rw [upd_co]; split <;> simp_all)
  · exact ((reach_invM r).ok hf k).keep rfl rfl (fun _ _ _ => rfl) (fun n _ => by unfold callSt; rw [upd_co]; split <;> simp_all)

theorem QW.chanSend {s : S} {i c : Nat} {m : Msg} {dl : Int} (h : ∀ k, QW s k) (hL : ∀ k j, .withdraw k j ∈ s.log → .withdraw k j ∈ (chanSend s i c m dl).log) (k : Nat) : QW (chanSend s i c m dl) k := by
  by_cases hk : c = k
  · subst hk
    intro ch e e1 e2
    obtain ⟨c0, g1, g2, g3⟩ := (chanSend_fl s i c m dl).le c ch e
    have hsc : c0.sclosed = true := by rw [← g2]; exact e1
    have : (Rt.chanSend s i c m dl).log = s.log := by unfold Rt.chanSend; rw [g1]; simp [hsc]
    rw [this]; exact h c c0 g1 hsc (by rw [← g3]; exact e2)
  · exact QW.fl h (chanSend_fl ..) (fun hl => hl.imp (by rw [chanSend_ow hk]; exact id) (fun ⟨j, hj⟩ => ⟨j, hL _ _ hj⟩))

theorem QW.chanRecv {s : S} {i c : Nat} {tr : Bool} {dl : Int} (h : ∀ k, QW s k) (x : Ctx s i) (hf : (chanRecv s i c tr dl).fault = false) (k : Nat) : QW (chanRecv s i c tr dl) k := by
  generalize ht : Rt.chanRecv s i c tr dl = t at *
  unfold Rt.chanRecv at ht
  split at ht
  · subst ht; cases hf
  rename_i ch hc
  split at ht
  · subst ht; exact (h k).post rfl rfl
  split at ht
  · subst ht; exact (h k).post rfl rfl
  split at ht
  · rename_i m o u hr
    subst ht
    simp at hf
    exact (QW.recvNow h x.Q x.L x.M hc hf hr k).post (by simp) (by simp)
  · split at ht
    · subst ht; exact (h k).post rfl rfl
    · subst ht
      refine QW.fl h (((FlLe.same (s := s) (t := push s (.chanQ c) (.co i)) (by simp)).set (ch' := { ch with qrecv := true }) hc ⟨rfl, rfl⟩).post (by simp)) (fun hl => by simpa using hl)

theorem QW.chanSelect {s : S} {i : Nat} {cs : List Nat} {tr : Bool} {dl : Int} (h : ∀ k, QW s k) (x : Ctx s i) (hf : (chanSelect s i cs dl tr).fault = false) (k : Nat) : QW (chanSelect s i cs dl tr) k := by
  generalize ht : Rt.chanSelect s i cs dl tr = t at *
  unfold Rt.chanSelect at ht
  split at ht
  · subst ht; cases hf
  split at ht
  · subst ht; exact (h k).post rfl rfl
  split at ht
  · split at ht
    · subst ht; cases hf
    rename_i kk c _ _ ch hc
    split at ht
    · subst ht; exact (h k).post rfl rfl
    split at ht
    · rename_i m o u hr
      subst ht
      simp at hf
      refine (QW.recvNow h x.Q x.L x.M hc hf hr k).post ?_ (by simp)
      simp only [resumeOpt_chan, setPc_chan]
      split
      · rename_i e; subst e; cases u.chan k <;> rfl
      · rfl
    · subst ht; cases hf
  · split at ht
    · subst ht; exact (h k).post rfl rfl
    · subst ht
      refine QW.fl h (FlLe.post (t := selPush (upd s i (fun k => { k with retIdx := -1 })) i 0 cs) ?_ (by simp)) (fun hl => by simpa using hl)
      constructor
      intro k ch e
      rw [selPush_chan] at e
      split at e
      · cases hx : s.chan k with
        | none => simp [hx] at e
        | some y => simp [hx] at e; subst e; exact ⟨y, rfl, rfl, rfl⟩
      · exact ⟨ch, e, rfl, rfl⟩

def InvW (s : S) : Prop := s.fault = false → ∀ k, QW s k

theorem InvW.step {ok} {s s' : S} {a : Act} (h : InvW s) (r : Reach ok s) (r' : Reach ok s') (hs : Rt.step s a = some s') : InvW s' := by
  intro hf' k
  have hft := step_nofault hs
  have hL := reach_invL r
  have hC := reach_invC r
  have hu := hC.ok hft
  have hM := (reach_invM r).ok hft
  have hq := h hft
  have hs0 := hs
  have quiet : FlLe s s' → (∀ k ∈ stepKinds s a, msgKind k = false ∨ k = .bcastTo) → QW s' k := fun h1 h2 => QW.fl hq h1 (step_live hs0 h2)
  unfold Rt.step at hs
  split at hs
  · cases hs
  cases a with
  | call c =>
    simp only at hs
    split at hs
    · cases hs
    rename_i i hc
    split at hs <;> cases hs
    by_cases hn : c.noChan = true
    · exact quiet (.same (doCall_chan (callSt s i c) i c hn)) (fun k hk => .inl (by
        simp only [stepKinds, List.mem_cons] at hk
        rcases hk with rfl | hk
        · rfl
        · exact callKinds_nomsg hn _ hk))
    rename_i hp
    have hq1 : ∀ k, QW (callSt s i c) k := fun k => QW.fl (t := callSt s i c) hq (.same rfl) (fun hl => hl.imp (by simp [callSt, content]) (fun ⟨j, hj⟩ => ⟨j, by simp [callSt]; exact hj⟩))
    have hx := call_ctx r hft hp.1 c
    change QW (doCall (callSt s i c) i c) k
    change (doCall (callSt s i c) i c).fault = false at hf'
    have hadd := doCall_adds (callSt s i c) i c
    have hsuf : ∀ k j, .withdraw k j ∈ (callSt s i c).log → .withdraw k j ∈ (doCall (callSt s i c) i c).log := by
      intro k j hj; obtain ⟨es, e1, _⟩ := hadd; rw [e1]; exact List.mem_append_right _ hj
    have hfresh := hC.fresh
    have hfr1 : ∀ k, (callSt s i c).nchan ≤ k → (callSt s i c).chan k = none := hC.fresh
    clear hs0 quiet
    generalize callSt s i c = t at *
    cases c <;> first | (simp [Call.noChan] at hn; done) | skip
    case send c m dl => exact QW.chanSend hq1 hsuf k
    case bcast c m => exact QW.fl hq1 (chanBcast_fl ..) (fun hl => hl.adds hadd (by simp [callKinds]))
    case recv c dl => exact QW.chanRecv hq1 hx hf' k
    case tryrecv c => exact QW.chanRecv hq1 hx hf' k
    case select cs dl => exact QW.chanSelect hq1 hx hf' k
    case tryselect cs => exact QW.chanSelect hq1 hx hf' k
    case genYield m dl =>
      simp only [doCall] at hsuf ⊢
      unfold doGenYield at hsuf ⊢
      split
      · exact (hq1 k).post rfl rfl
      · rename_i hg; simp only [hg] at hsuf; exact QW.chanSend hq1 hsuf k
    case close c =>
      simp only [doCall] at hf' ⊢
      unfold chanClose at hf' ⊢
      split
      · rename_i hcc; rw [hcc] at hf'; cases hf'
      split
      · exact (hq1 k).post rfl rfl
      · rename_i hcc _; exact QW.close1 hq1 (hx.M c) hcc k
    case chRelease c => exact QW.fl hq1 ((chanRelease_fl ..).post rfl) (fun hl => hl.adds hadd (by simp [callKinds]))
    case chRetain c =>
      refine QW.fl hq1 ?_ (fun hl => hl.adds hadd (by simp [callKinds]))
      simp only [doCall]; split
      · exact .same rfl
      · rename_i hcc; refine ((FlLe.refl t).set hcc ?_).post rfl; exact ⟨rfl, rfl⟩
    case chMake cap =>
      intro ch e e1 e2
      have e3 : (if k = t.nchan then some ({ cap := cap } : Chan) else t.chan k) = some ch := e
      split at e3
      · cases e3; cases e1
      · exact (hq1 k ch e3 e1 e2).adds hadd (by simp [callKinds])
    case genStart =>
      intro ch e e1 e2
      have e3 : (if k = t.nchan then some ({ rc := 1 } : Chan) else t.chan k) = some ch := e
      split at e3
      · cases e3; cases e1
      · exact (hq1 k ch e3 e1 e2).adds hadd (by simp [callKinds, msgKind])
  | finish => simp only at hs; (repeat' split at hs) <;> cases hs <;> exact quiet (.same rfl) (by simp [stepKinds])
  | tau =>
    simp only at hs
    split at hs
    · rename_i i hc
      by_cases h1 : ∃ a b, (s.co i).pc = .go (.genRel a b)
      · obtain ⟨sc, as, hp⟩ := h1
        refine quiet ?_ (by simp only [stepKinds, hc, hp]; exact fun k hk => .inl (pcKinds_nomsg (by simp) k hk))
        unfold tauCo at hs; rw [hp] at hs; simp only [doAft] at hs
        split at hs <;> cases hs
        · exact (chanRelease_fl ..).post rfl
        · exact .same rfl
      by_cases h2 : ∃ a, (s.co i).pc = .exitRun a
      · obtain ⟨as, hp⟩ := h2
        have hk : ∀ k ∈ stepKinds s .tau, msgKind k = false ∨ k = .bcastTo := by simp only [stepKinds, hc, hp]; exact fun k hk => .inl (pcKinds_nomsg (by simp) k hk)
        have hlv := step_live hs0 hk (c := k)
        unfold tauCo at hs; rw [hp] at hs; simp only [doExit] at hs
        have ex : ∀ x, exitNotify s i x = s' → QW s' k := by
          intro x e ch' e0 e1 e2
          rcases exitNotify_ch e e0 e1 e2 with ⟨ch, g1, g2, g3⟩ | hx
          · exact hlv (hq k ch g1 g2 g3)
          · exact ((reach_invM r').ok hf' k).live e0 hx
        (repeat' split at hs) <;> cases hs
        · exact quiet (.same rfl) hk
        · exact ex _ rfl
        · exact ex _ rfl
      have hfl := FlLe.core (tauCo_chan hs (fun a b e => h1 ⟨a, b, e⟩) (fun a e => h2 ⟨a, e⟩))
      by_cases h3 : (s.co i).pc = .blk .send
      · exact QW.fl hq hfl (fun hl => hl.wd (step_adds hs0) (by simp only [stepKinds, hc, h3]; simp [pcKinds, msgKind]))
      · exact quiet hfl (by simp only [stepKinds, hc]; exact fun k hk => .inl (pcKinds_nomsg h3 k hk))
    · rename_i hc
      obtain ⟨e1, e2, e3⟩ := tauMain_Q hs
      refine quiet (.same e2) ?_
      simp only [stepKinds, hc]; unfold mainKinds; split <;> simp [msgKind]
  | submit ok => simp only at hs; (repeat' split at hs) <;> cases hs <;> exact quiet (.same rfl) (by simp [stepKinds])
  | events evs =>
    simp only at hs; split at hs <;> cases hs
    refine quiet (.same ?_) (by simp [stepKinds, msgKind])
    show (if s.nevwaiters > 0 then mEvents s evs else s).chan = _; split <;> simp
  | clock t => simp only at hs; split at hs <;> cases hs; exact quiet (.same rfl) (by simp [stepKinds])
  | signal n => simp only at hs; (repeat' split at hs) <;> cases hs <;> exact quiet (.same rfl) (by simp [stepKinds, msgKind])
  | wdone i =>
    have hlv : Live k s.log → Live k s'.log := fun hl => hl.wd (step_adds hs0) (by simp [stepKinds, msgKind])
    simp only at hs; split at hs <;> cases hs; refine QW.fl hq ?_ hlv; exact .same rfl

theorem reach_invW {ok} {s : S} (r : Reach ok s) : InvW s := by
  induction r with
  | init a e => intro _ k ch e; simp [init] at e
  | step h a ho hs ih => exact ih.step h (.step h a ho hs) hs

end Neco.Rt
