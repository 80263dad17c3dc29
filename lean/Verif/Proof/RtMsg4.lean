import Verif.Proof.RtMsg3
/-!
# Capacities, messages of blocked senders, cases of blocked selects
-/
namespace Neco.Rt
open Neco.Err

/-! ## Capacities -/

/-- same capacity, and flags once set stay -/
def ChLe (ch0 ch : Chan) : Prop := ch.cap = ch0.cap ∧ (ch0.sclosed = true → ch.sclosed = true) ∧ (ch0.rclosed = true → ch.rclosed = true)
theorem ChLe.refl (ch : Chan) : ChLe ch ch := ⟨rfl, id, id⟩
theorem ChLe.trans {a b c : Chan} (h : ChLe a b) (g : ChLe b c) : ChLe a c := ⟨g.1.trans h.1, g.2.1 ∘ h.2.1, g.2.2 ∘ h.2.2⟩

/-- every channel of `t` is one of `s`, with the same capacity; what was closed stays closed -/
structure CapLe (s t : S) : Prop where
  le : ∀ k ch, t.chan k = some ch → ∃ ch0, s.chan k = some ch0 ∧ ChLe ch0 ch

theorem CapLe.refl (s : S) : CapLe s s := ⟨fun _ ch h => ⟨ch, h, .refl _⟩⟩
theorem CapLe.trans {s t u : S} (h : CapLe s t) (g : CapLe t u) : CapLe s u := by
  constructor
  intro k ch e
  obtain ⟨c1, e1, e2⟩ := g.le k ch e
  obtain ⟨c0, e3, e4⟩ := h.le k c1 e1
  exact ⟨c0, e3, e4.trans e2⟩
theorem CapLe.same {s t : S} (h : t.chan = s.chan) : CapLe s t := ⟨fun _ ch e => ⟨ch, by rw [← h]; exact e, .refl _⟩⟩
theorem CapLe.post {s t u : S} (h : CapLe s t) (g : u.chan = t.chan) : CapLe s u := h.trans (.same g)
theorem CapLe.core {s t : S} (h : ∀ k, (t.chan k).map core = (s.chan k).map core) : CapLe s t := by
  constructor
  intro k ch e
  obtain ⟨c0, e1, e2⟩ := chan_core (h k) e
  simp only [Rt.core, Prod.mk.injEq] at e2; exact ⟨c0, e1, e2.2.2.2.1.symm, by rw [e2.1]; exact id, by rw [e2.2.1]; exact id⟩
theorem CapLe.set {s t : S} {c : Nat} {ch ch' : Chan} (h : CapLe s t) (hc : s.chan c = some ch) (he : ChLe ch ch') : CapLe s (setChan t c ch') := by
  constructor
  intro k x e
  simp only [setChan] at e
  split at e
  · rename_i hk; subst hk; cases e; exact ⟨ch, hc, he⟩
  · exact h.le k x e
theorem CapLe.upd {s t : S} {c : Nat} {f : Chan → Chan} (h : CapLe s t) (hf : ∀ x, ChLe x (f x)) {u : S} (hu : u.chan = fun k => if k = c then (t.chan c).map f else t.chan k) : CapLe s u := by
  refine h.trans ⟨?_⟩
  intro k x e
  rw [hu] at e; dsimp only at e
  split at e
  · rename_i hk; subst hk
    cases hx : t.chan k with
    | none => rw [hx] at e; cases e
    | some y => rw [hx] at e; simp at e; subst e; exact ⟨y, rfl, hf y⟩
  · exact ⟨x, e, .refl _⟩

theorem chanSend_cap (s : S) (i c : Nat) (m : Msg) (dl : Int) : CapLe s (chanSend s i c m dl) := by
  unfold chanSend
  split
  · exact .same rfl
  rename_i ch hc
  split
  · exact .same rfl
  split
  · exact .same rfl
  have h1 : CapLe s (sendTry (note s (.put c i m)) c m ch).1 := .core (sendTry_core (note s (.put c i m)) c m ch)
  dsimp only
  split
  · exact h1.post (by simp)
  · unfold sendRest; split
    · refine (h1.set hc ?_).post (by simp; rfl)
      exact ⟨rfl, id, id⟩
    · refine ((h1.post (u := push (sendTry (note s (.put c i m)) c m ch).1 (.chanQ c) (.co i)) (by simp)).set (ch' := { ch with qrecv := false }) hc ⟨rfl, id, id⟩).post (by simp)
theorem chanBcast_cap (s : S) (i c : Nat) (m : Msg) : CapLe s (chanBcast s i c m) := by
  unfold chanBcast
  split
  · exact .same rfl
  split
  · exact .same rfl
  · refine CapLe.post (t := (bcastTry s c m _).1) ?_ (by simp; rfl)
    unfold bcastTry; split
    · exact .core (fun k => bcastLoop_core _ _ _ _ k)
    · exact .refl s
theorem recvNow_cap {s t : S} {c r : Nat} {ch : Chan} {m : Msg} {o : Option Nat} (hc : s.chan c = some ch) (h : recvNow s c r ch = some (m, o, t)) : CapLe s t := by
  unfold recvNow at h
  (repeat' split at h) <;> first
    | (simp at h; done)
    | (simp at h; obtain ⟨_, _, rfl⟩ := h; first | exact .same rfl | (refine ((CapLe.refl s).set hc ?_).post rfl; first | exact ⟨rfl, id, id⟩ | exact ⟨rfl, id, fun h => by simp [h]⟩) | (refine ((CapLe.same (s := s) (t := setList s _ _) rfl).set hc ?_).post rfl; first | exact ⟨rfl, id, id⟩ | exact ⟨rfl, id, fun h => by simp [h]⟩))
theorem chanRecv_cap (s : S) (i c : Nat) (t : Bool) (dl : Int) : CapLe s (chanRecv s i c t dl) := by
  unfold chanRecv
  split
  · exact .same rfl
  rename_i ch hc
  split
  · exact .same rfl
  split
  · exact .same rfl
  split
  · rename_i h; exact (recvNow_cap hc h).post (by simp)
  · split
    · exact .same rfl
    · exact ((CapLe.same (s := s) (t := push s (.chanQ c) (.co i)) (by simp)).set (ch' := { ch with qrecv := true }) hc ⟨rfl, id, id⟩).post (by simp)
theorem chanClose1_cap (s : S) (i c : Nat) {ch : Chan} (hc : s.chan c = some ch) (a : Aft) : CapLe s (chanClose1 s i c ch a) := by
  unfold chanClose1; dsimp only
  have h1 : CapLe s (setChan s c { ch with sclosed := true }) := (CapLe.refl s).set hc ⟨rfl, fun _ => rfl, id⟩
  split
  · exact h1.post rfl
  · refine CapLe.post (t := closeEnd (closeLoop _ c _) c) ?_ (by simp; rfl)
    refine CapLe.upd (c := c) (f := fun ch => { ch with rclosed := true, qrecv := false }) (h1.trans (.core (closeLoop_core _ _ _))) (fun _ => ⟨rfl, id, fun _ => rfl⟩) rfl
theorem chanSelect_cap (s : S) (i : Nat) (cs : List Nat) (t : Bool) (dl : Int) : CapLe s (chanSelect s i cs dl t) := by
  unfold chanSelect
  split
  · exact .same rfl
  split
  · exact .same rfl
  split
  · split
    · exact .same rfl
    rename_i ch hc
    split
    · exact .same rfl
    split
    · rename_i c _ _ _ _ m o u h
      refine CapLe.post (t := { u with chan := fun j => if j = c then (u.chan c).map (fun ch => { ch with lmsg := m }) else u.chan j }) ?_ (by simp)
      exact (recvNow_cap hc h).upd (c := c) (f := fun ch => { ch with lmsg := m }) (fun _ => ⟨rfl, id, id⟩) rfl
    · exact .same rfl
  · split
    · exact .same rfl
    · refine CapLe.post (t := selPush (upd s i (fun k => { k with retIdx := -1 })) i 0 cs) ?_ (by simp)
      constructor
      intro k ch e
      rw [selPush_chan] at e
      split at e
      · cases hx : s.chan k with
        | none => simp [hx] at e
        | some y => simp [hx] at e; subst e; exact ⟨y, rfl, rfl, id, id⟩
      · exact ⟨ch, e, .refl _⟩
theorem chanRelease_cap (s : S) (c : Nat) : CapLe s (chanRelease s c) := by
  unfold chanRelease
  split
  · exact .same rfl
  rename_i ch hc
  split
  · constructor; intro k x e; simp at e; exact ⟨x, e.2, .refl _⟩
  · exact (CapLe.refl s).set hc ⟨rfl, fun h => h, fun h => h⟩
theorem exitNotify_cap (s : S) (i : Nat) (a : Bool) : CapLe s (exitNotify s i a) := by
  unfold exitNotify
  extract_lets t1 qc t2 qj t3 sched
  have hch : t3.chan = s.chan := by simp [t3, t2, t1]
  have h3 : CapLe s t3 := .same hch
  split
  · exact h3.post rfl
  split
  · exact h3.post rfl
  split
  · exact h3.post rfl
  · rename_i hc _; exact h3.trans (chanClose1_cap _ _ _ hc _)

theorem tauCo_cap {s s' : S} {i : Nat} (hs : tauCo s i = some s') : CapLe s s' := by
  by_cases h1 : ∃ a b, (s.co i).pc = .go (.genRel a b)
  · obtain ⟨sc, as, hp⟩ := h1
    unfold tauCo at hs; rw [hp] at hs; simp only [doAft] at hs
    split at hs <;> cases hs
    · exact (chanRelease_cap ..).post rfl
    · exact .same rfl
  by_cases h2 : ∃ a, (s.co i).pc = .exitRun a
  · obtain ⟨as, hp⟩ := h2
    unfold tauCo at hs; rw [hp] at hs; simp only [doExit] at hs
    (repeat' split at hs) <;> cases hs
    · exact .same rfl
    · exact exitNotify_cap ..
    · exact exitNotify_cap ..
  exact .core (tauCo_chan hs (fun a b e => h1 ⟨a, b, e⟩) (fun a e => h2 ⟨a, e⟩))

structure InvK2 (s : S) : Prop where
  n : s.nchan = (made s.log).length
  cap : ∀ k ch, s.chan k = some ch → (made s.log).reverse[k]? = some ch.cap

theorem made_other {e : Ev} (l : List Ev) (h : e.kind ≠ .call) : made (e :: l) = made l := by
  cases e <;> first | rfl | exact absurd rfl h
theorem made_adds {ks : List Kind} {s t : S} (h : Adds ks s t) (hk : .call ∉ ks) : made t.log = made s.log := by
  obtain ⟨es, h1, h2⟩ := h
  rw [h1]; clear h1
  induction es with
  | nil => rfl
  | cons e es ih =>
    rw [List.cons_append, made_other _ (fun e' => hk (e' ▸ h2 e List.mem_cons_self)), ih (fun x hx => h2 x (List.mem_cons_of_mem _ hx))]


theorem InvK2.step {s s' : S} {a : Act} (h : InvK2 s) (hC : InvC s) (hs : step s a = some s') : InvK2 s' := by
  have hs0 := hs
  have keep : made s'.log = made s.log → s'.nchan = s.nchan → CapLe s s' → InvK2 s' := by
    intro h1 h2 h3
    refine ⟨by rw [h1, h2]; exact h.n, fun k ch e => ?_⟩
    obtain ⟨c0, e1, e2⟩ := h3.le k ch e
    rw [h1, e2.1]; exact h.cap k c0 e1
  unfold Rt.step at hs
  split at hs
  · cases hs
  cases a with
  | call c =>
    simp only at hs
    split at hs
    · cases hs
    rename_i i hc
    split at hs <;> cases hs
    have hm := made_adds (doCall_adds (callSt s i c) i c) (callKinds_call c)
    by_cases h1 : ∃ cap, c = .chMake cap
    · obtain ⟨cap, rfl⟩ := h1
      refine ⟨?_, ?_⟩
      · show _ = (made (doCall (callSt s i (.chMake cap)) i (.chMake cap)).log).length
        rw [hm]; simp [callSt, made, doCall, h.n]
      · intro k ch e
        show (made (doCall (callSt s i (.chMake cap)) i (.chMake cap)).log).reverse[k]? = _
        rw [hm]; simp only [callSt, upd_log, note_log, made, List.reverse_cons]
        have e' : (if k = s.nchan then some ({ cap := cap } : Chan) else s.chan k) = some ch := e
        split at e'
        · rename_i hk; cases e'; rw [hk, h.n]; simp
        · rw [List.getElem?_append_left]
          · exact h.cap k ch e'
          · rw [List.length_reverse, ← h.n]
            exact Nat.lt_of_not_le (fun hx => by rw [hC.fresh k hx] at e'; cases e')
    by_cases h2 : c = .genStart
    · subst h2
      refine ⟨?_, ?_⟩
      · show _ = (made (doCall (callSt s i .genStart) i .genStart).log).length
        rw [hm]; simp [callSt, made, doCall, doGenStart, doStart, h.n]
      · intro k ch e
        show (made (doCall (callSt s i .genStart) i .genStart).log).reverse[k]? = _
        rw [hm]; simp only [callSt, upd_log, note_log, made, List.reverse_cons]
        have e' : (if k = s.nchan then some ({ rc := 1 } : Chan) else s.chan k) = some ch := e
        split at e'
        · rename_i hk; cases e'; rw [hk, h.n]; simp
        · rw [List.getElem?_append_left]
          · exact h.cap k ch e'
          · rw [List.length_reverse, ← h.n]
            exact Nat.lt_of_not_le (fun hx => by rw [hC.fresh k hx] at e'; cases e')
    have hm1 : made (callSt s i c).log = made s.log := by
      cases c <;> first | rfl | exact absurd rfl h2 | exact absurd ⟨_, rfl⟩ h1
    have hc0 : CapLe s (callSt s i c) := .same rfl
    refine keep (hm.trans hm1) ?_ (hc0.trans ?_)
    · show (doCall (callSt s i c) i c).nchan = (callSt s i c).nchan
      generalize callSt s i c = t
      cases c <;> first | exact absurd rfl h2 | exact absurd ⟨_, rfl⟩ h1 | (simp [doCall]; done) | skip
      all_goals simp only [doCall]
      · split <;> simp
    · show CapLe _ (doCall (callSt s i c) i c)
      generalize callSt s i c = t
      by_cases hn : c.noChan = true
      · exact .same (doCall_chan _ _ _ hn)
      · cases c <;> first | exact absurd rfl h2 | exact absurd ⟨_, rfl⟩ h1 | (simp [Call.noChan] at hn; done) | simp only [doCall]
        · split
          · exact .same rfl
          · rename_i hc; refine ((CapLe.refl t).set hc ?_).post rfl; exact ⟨rfl, id, id⟩
        · exact (chanRelease_cap ..).post rfl
        · exact chanSend_cap ..
        · exact chanBcast_cap ..
        · exact chanRecv_cap ..
        · exact chanRecv_cap ..
        · unfold chanClose; (repeat' split)
          · exact .same rfl
          · exact .same rfl
          · exact chanClose1_cap _ _ _ (by assumption) _
        · exact chanSelect_cap ..
        · exact chanSelect_cap ..
        · unfold doGenYield; split
          · exact .same rfl
          · exact chanSend_cap ..
  | finish => simp only at hs; (repeat' split at hs) <;> cases hs <;> exact keep rfl rfl (.same rfl)
  | tau =>
    simp only at hs
    split at hs
    · exact keep (made_adds (tauCo_adds hs) (pcKinds_call _)) (tauCo_nchan hs) (tauCo_cap hs)
    · obtain ⟨e1, e2, e3⟩ := tauMain_Q hs
      exact keep (made_adds (tauMain_adds hs) (mainKinds_call _)) e3 (.same e2)
  | submit ok => simp only at hs; (repeat' split at hs) <;> cases hs <;> exact keep rfl rfl (.same rfl)
  | events evs =>
    have hm := made_adds (step_adds hs0) (by simp [stepKinds])
    simp only at hs; split at hs <;> cases hs
    refine keep hm ?_ (.same ?_)
    · show (if s.nevwaiters > 0 then mEvents s evs else s).nchan = _; split <;> simp
    · show (if s.nevwaiters > 0 then mEvents s evs else s).chan = _; split <;> simp
  | clock t => simp only at hs; split at hs <;> cases hs; exact keep rfl rfl (.same rfl)
  | signal n => simp only at hs; (repeat' split at hs) <;> cases hs <;> exact keep rfl rfl (.same rfl)
  | wdone i => have hm := made_adds (step_adds hs0) (by simp [stepKinds]); simp only at hs; split at hs <;> cases hs; exact keep hm rfl (.same rfl)

theorem reach_invK2 {ok} {s : S} (r : Reach ok s) : InvK2 s := by
  induction r with
  | init a e => exact ⟨rfl, fun k ch e => by simp [init] at e⟩
  | step h a ho hs ih => exact ih.step (reach_invC h) hs

/-! ## Messages of blocked senders, cases of blocked selects -/

structure CoX (j : Nat) (s : S) : Prop where
  sm : (s.co j).pc = .blk .send → ∀ k m dl, (s.co j).call = .send k m dl ∨ (s.co j).call = .genYield m dl → (s.co j).smsg = m
  se : (s.co j).pc = .blk .sel → (s.co j).retIdx = -1 → ∀ cs dl, (s.co j).call = .select cs dl → ∀ k c, cs[k]? = some c → .case j k ∈ s.lists (.chanQ c)

theorem CoX.quiet {j : Nat} {s : S} (h : chq (s.co j).pc = false) : CoX j s :=
  ⟨fun e => absurd h (by rw [e]; simp [chq]), fun e => absurd h (by rw [e]; simp [chq])⟩

theorem CoX.delta {s t : S} {j : Nat} {f : Co → Co} {es gone res up} (h : CoX j s) (d : Dlt j f es gone res up s t)
    (hf : ∀ k, view (f k) = view k) (hm : ∀ k, (f k).smsg = k.smsg) (hr : (f (s.co j)).retIdx = -1 → (s.co j).retIdx = -1 ∧ ∀ k L, ¬ gone (.case j k) L) : CoX j t := by
  have hv := hf (s.co j)
  simp only [view, Prod.mk.injEq] at hv
  refine ⟨?_, ?_⟩
  · rw [d.co, hv.1, hv.2.1, hm]; exact h.sm
  · rw [d.co, hv.1, hv.2.1]
    intro hp hr1 cs dl hc k c hk
    obtain ⟨h1, h2⟩ := hr hr1
    exact (d.mem _ _ rfl).mpr (.inl ⟨h.se hp h1 cs dl hc k c hk, h2 _ _⟩)

theorem CoX.mv {s t : S} {j : Nat} (h : CoX j s) (m : Mv j s t) : CoX j t := by
  cases m with
  | same d => exact h.delta d (fun k => rfl) (fun k => rfl) (fun e => ⟨e, by simp⟩)
  | take c m hn hp hc d => exact h.delta d (fun k => rfl) (fun k => rfl) (fun e => ⟨e, by simp⟩)
  | takeCase c m k hn hp hc hr d => exact h.delta d (fun k => rfl) (fun k => rfl) (fun e => absurd e (by simp <;> omega))
  | bcast c m hn hp hc d => exact h.delta d (fun k => rfl) (fun k => rfl) (fun e => ⟨e, by simp⟩)
  | bcastCase c m k hn hp hc hr d => exact h.delta d (fun k => rfl) (fun k => rfl) (fun e => absurd e (by simp <;> omega))
  | close c hn hp hc d => exact h.delta d (fun k => rfl) (fun k => rfl) (fun e => ⟨e, by simp⟩)
  | closeCase c k hn hp hc hr d => exact h.delta d (fun k => rfl) (fun k => rfl) (fun e => absurd e (by simp <;> omega))
  | skip g hr hg d => exact h.delta d (fun k => rfl) (fun k => rfl) (fun e => absurd e hr)
  | sent c hn hp hc d => exact h.delta d (fun k => rfl) (fun k => rfl) (fun e => ⟨e, by simp⟩)
  | grant m rd hn hr d => exact h.delta d (fun k => rfl) (fun k => rfl) (fun e => ⟨e, by simp⟩)
  | wake L now hn hL d => exact h.delta d (fun k => rfl) (fun k => rfl) (fun e => ⟨e, by simp⟩)
  | resumed i hp d => exact h.delta d (fun k => rfl) (fun k => rfl) (fun e => ⟨e, by simp⟩)
  | canceled i he d => exact h.delta d (fun k => rfl) (fun k => rfl) (fun e => ⟨e, by simp⟩)
  | fromRes hn d => exact h.delta d (fun k => rfl) (fun k => rfl) (fun e => ⟨e, by simp⟩)
  | fromIo hn d => exact h.delta d (fun k => rfl) (fun k => rfl) (fun e => ⟨e, by simp⟩)
  | ready fd w es hn he hes d => exact h.delta d (fun k => rfl) (fun k => rfl) (fun e => ⟨e, by simp⟩)
  | sigTo n hn hm d => exact h.delta d (fun k => rfl) (fun k => rfl) (fun e => ⟨e, by simp⟩)
  | deadlined hn hd d => exact h.delta d (fun k => rfl) (fun k => rfl) (fun e => ⟨e, by simp⟩)
  | wdone hj co mem pz dl ev jb log clk =>
    refine ⟨by rw [co]; exact h.sm, ?_⟩
    rw [co]; intro hp hr cs dl hc k c hk
    exact (mem _ _ rfl).mpr (.inl ⟨h.se hp hr cs dl hc k c hk, by simp⟩)

theorem CoX.mvs {s t : S} {j : Nat} (h : CoX j s) (m : Mvs j s t) : CoX j t := by
  induction m with
  | refl => exact h
  | head a _ ih => exact ih (h.mv a)

theorem selPush_has (s : S) (i k : Nat) (cs : List Nat) (hf : ∀ L x, k ≤ x → .case i x ∉ s.lists L) :
    (∀ n L, n ∈ s.lists L → n ∈ (selPush s i k cs).lists L) ∧ ∀ x c, cs[x]? = some c → .case i (k + x) ∈ (selPush s i k cs).lists (.chanQ c) := by
  induction cs generalizing s k with
  | nil => exact ⟨fun n L h => h, fun x c h => by simp at h⟩
  | cons d cs ih =>
    simp only [selPush]
    have hf' : ∀ L x, k + 1 ≤ x → .case i x ∉ (push s (.chanQ d) (.case i k)).lists L := by
      intro L x hx hm
      rcases mem_push.1 hm with ⟨h1, _⟩ | ⟨_, h1⟩
      · exact hf L x (by omega) h1
      · cases h1; omega
    obtain ⟨h1, h2⟩ := ih { push s (.chanQ d) (.case i k) with chan := fun j => if j = d then ((push s (.chanQ d) (.case i k)).chan d).map (fun ch => { ch with qrecv := true }) else (push s (.chanQ d) (.case i k)).chan j } (k + 1) hf'
    refine ⟨?_, ?_⟩
    · intro n L hn
      refine h1 n L (mem_push.2 (.inl ⟨hn, ?_⟩))
      intro e; subst e; exact hf L k (Nat.le_refl _) hn
    · intro x c hx
      cases x with
      | zero => simp at hx; subst hx; exact h1 _ _ (mem_push.2 (.inr ⟨rfl, rfl⟩))
      | succ x =>
        have := h2 x c (by simpa using hx)
        rwa [show k + 1 + x = k + (x + 1) by omega] at this

theorem chanSend_x {s : S} {i : Nat} (c : Nat) (m : Msg) (dl : Int) (hcall : (∃ d, (s.co i).call = .send c m d) ∨ ∃ d, (s.co i).call = .genYield m d) (hu : chq (s.co i).pc = false) :
    CoX i (chanSend s i c m dl) := by
  unfold chanSend
  split
  · exact .quiet hu
  rename_i ch hc
  split
  · exact .quiet (by simp [chq])
  split
  · exact .quiet (by simp [chq])
  dsimp only
  split
  · exact .quiet (by simp [chq])
  · unfold sendRest; split
    · exact .quiet (by simp [chq])
    · dsimp only
      generalize hz : push (sendTry (note s (.put c i m)) c m ch).1 (.chanQ c) (.co i) = z
      have hcl : (z.co i).call = (s.co i).call := by
        rw [← hz]
        have := sendTry_view (s := note s (.put c i m)) (c := c) (m := m) (ch := ch) (j := i)
        simp only [view, Prod.mk.injEq] at this
        rw [push_co, this.2.1]; rfl
      refine ⟨?_, ?_⟩
      · intro _ k m' d hh
        rw [copause_co, if_pos rfl] at hh ⊢
        refine Eq.trans (b := m) (by split <;> simp [upd_co]) ?_
        have hx : ((s.co i).call = .send k m' d ∨ (s.co i).call = .genYield m' d) := by
          rw [← hcl]; split at hh <;> simpa [upd_co] using hh
        rcases hcall with ⟨d0, e⟩ | ⟨d0, e⟩ <;> rw [e] at hx <;> simp at hx
        · exact hx.2.1
        · exact hx.1
      · intro hp; exfalso; rw [pc_copause] at hp; cases hp

theorem chanSelect_x {s : S} {i : Nat} (hcs : ∀ L k, .case i k ∉ s.lists L) (cs : List Nat) (t : Bool) (dl : Int) (hcall : ∃ d, (s.co i).call = .select cs d ∨ (s.co i).call = .tryselect cs) (hu : chq (s.co i).pc = false) :
    CoX i (chanSelect s i cs dl t) := by
  unfold chanSelect
  split
  · exact .quiet hu
  split
  · exact .quiet (by simp [chq])
  split
  · split
    · exact .quiet hu
    split
    · exact .quiet (by simp [chq])
    split
    · exact .quiet (by rw [pc_resumeOpt, pc_setPc]; rfl)
    · exact .quiet hu
  · split
    · exact .quiet (by simp [chq])
    · dsimp only
      obtain ⟨_, h2⟩ := selPush_has (upd s i (fun k => { k with retIdx := -1 })) i 0 cs (fun L x _ => hcs L x)
      generalize hz : selPush (upd s i (fun k => { k with retIdx := -1 })) i 0 cs = z at *
      have hcl : (z.co i).call = (s.co i).call := by rw [← hz]; simp [upd_co]
      refine ⟨?_, ?_⟩
      · intro hp; rw [pc_copause] at hp; cases hp
      · intro _ _ cs' d hh k c hk
        rw [copause_lists]
        have : cs' = cs := by
          rw [copause_co, if_pos rfl] at hh
          obtain ⟨d0, e⟩ := hcall
          split at hh <;> simp [hcl] at hh <;> rcases e with e | e <;> rw [e] at hh <;> simp at hh <;> exact hh.1.symm
        subst this
        have := h2 k c hk; simpa using this

theorem CoX.step {ok} {s s' : S} {a : Act} (h : ∀ j, CoX j s) (r : Reach ok s) (hs : Rt.step s a = some s') (j : Nat) : CoX j s' := by
  by_cases hc : s.sco.cur = some j
  · by_cases hca : ∃ c, a = .call c
    · obtain ⟨c, rfl⟩ := hca
      obtain ⟨i, h1, h2, h3, h4⟩ := step_call hs
      rw [hc] at h1; cases h1
      have hn := (cur_le (reach_scoWF r) hc).2
      have hu : chq ((callSt s j c).co j).pc = false := by simp [callSt, upd_co, h2, chq]
      have hcl : ((callSt s j c).co j).call = c := by simp [callSt, upd_co]
      subst h4
      have hcl2 : ((doCall (callSt s j c) j c).co j).call = c := (doCall_call (s := callSt s j c) c hn).trans hcl
      by_cases hcc : c.chans = false
      · exact .quiet (doCall_pc _ _ _ hcc hu hn)
      · cases c <;> first | (simp [Call.chans] at hcc; done) | simp only [doCall]
        · exact chanSend_x _ _ _ (.inl ⟨_, hcl⟩) hu
        · exact ⟨fun _ k m dl hh => by simp only [doCall] at hcl2; rw [hcl2] at hh; simp at hh,
            fun _ _ cs dl hh => by simp only [doCall] at hcl2; rw [hcl2] at hh; cases hh⟩
        · refine chanSelect_x ?_ _ _ _ ⟨_, .inl hcl⟩ hu
          intro L k hm
          have := (reach_invL r).pl L _ hm
          cases L <;> simp [place, Node.owner, h2] at this
        · unfold doGenYield; split
          · exact .quiet (by simp [chq])
          · exact chanSend_x _ _ _ (.inr ⟨_, hcl⟩) hu
    · have hp : chq (s'.co j).pc = false ∨ (s'.co j = s.co j ∧ ∀ k c, .case j k ∈ s.lists (.chanQ c) → .case j k ∈ s'.lists (.chanQ c)) := by
        unfold Rt.step at hs
        split at hs
        · cases hs
        cases a with
        | call c => exact absurd ⟨c, rfl⟩ hca
        | finish => simp only [hc] at hs; split at hs <;> cases hs; exact .inl (by rw [pc_setPc]; rfl)
        | tau => simp only [hc] at hs; exact .inl (tauCo_pc hs)
        | submit o =>
          simp only [hc] at hs
          split at hs
          · split at hs <;> cases hs
            · exact .inl (by rw [pc_setPc]; rfl)
            · exact .inr ⟨rfl, fun _ _ h => h⟩
          · cases hs
        | events evs => simp [hc] at hs
        | clock t => simp only at hs; split at hs <;> cases hs; exact .inr ⟨rfl, fun _ _ h => h⟩
        | signal n => simp only at hs; (repeat' split at hs) <;> cases hs <;> exact .inr ⟨rfl, fun _ _ h => h⟩
        | wdone i => simp only at hs; split at hs <;> cases hs; exact .inr ⟨by simp, fun k c hm => mem_push.2 (.inl ⟨hm, by simp⟩)⟩
      rcases hp with hp | ⟨h1, h2⟩
      · exact .quiet hp
      · exact ⟨by rw [h1]; exact (h j).sm, by rw [h1]; exact fun a b cs dl e k c hk => h2 k c ((h j).se a b cs dl e k c hk)⟩
  · by_cases hn : (a = .call .start ∨ a = .call .genStart) ∧ j = s.sco.nextId + 1
    · obtain ⟨ha, rfl⟩ := hn
      obtain ⟨i, g, _, e1, _⟩ := start_new ha hs
      exact .quiet (by rw [e1, (newCo_pc s i g).1]; rfl)
    · exact (h j).mvs (step_other (reach_invL r) (reach_invC r) hs hc (fun ha e => hn ⟨ha, e⟩) (((reach_invF r).cf j).evU))

theorem reach_coX {ok} {s : S} (r : Reach ok s) (j : Nat) : CoX j s := by
  induction r generalizing j with
  | init a e => exact .quiet (by simp only [init]; split <;> rfl)
  | step h a ho hs ih => exact CoX.step ih h hs j

end Neco.Rt
