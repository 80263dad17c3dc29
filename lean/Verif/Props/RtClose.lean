import Verif.Proof.RtRecv
import Verif.Proof.RtClose
import Verif.Props.RtChan
import Verif.Proof.RtLoop
/-!
# Closing a channel (C15)

`b` is the history at the moment the call in question was made.
-/
namespace Neco.Rt
open Neco.Err

/-! ## Sending on a closed channel -/

/-- a send, a broadcast or a close made after a close of the channel returns `NECO_CLOSED`, in every execution -/
theorem C15_closed_for_sending {ok} {s : S} (r : Reach ok s) {i c k : Nat} {cl : Call} {v : Int} {d : Msg} {b : List Ev}
    (h : Returns s i cl v d) (hb : s.log = since i s.log ++ .call i cl :: b) (hc : .call k (.close c) ∈ b)
    (hcl : (∃ m dl, cl = .send c m dl) ∨ (∃ m, cl = .bcast c m) ∨ cl = .close c) : v = CLOSED := by
  obtain ⟨s0, s1, es, fs, r0, e0, hcur, hu, hs, e1, hf0, hf1, hl, hsi, hl1, ho, hr⟩ := returns_from r h hb
  subst e0
  obtain ⟨_, hsh⟩ := reach_shut r0 hc hf0
  apply ho
  cases hch : s0.chan c with
  | none =>
    exfalso
    rw [e1] at hf1
    have : (callSt s0 i cl).chan c = none := hch
    rcases hcl with ⟨m, dl, rfl⟩ | ⟨m, rfl⟩ | rfl
    · simp [doCall, chanSend, this] at hf1
    · simp [doCall, chanBcast, this] at hf1
    · simp [doCall, chanClose, this] at hf1
  | some ch =>
    have hsc := hsh ch hch
    have : (callSt s0 i cl).chan c = some ch := hch
    rw [e1]
    rcases hcl with ⟨m, dl, rfl⟩ | ⟨m, rfl⟩ | rfl
    · simp [doCall, chanSend, this, hsc, pc_retv, outPc]
    · simp [doCall, chanBcast, this, hsc, pc_retv, outPc]
    · simp [doCall, chanClose, this, hsc, pc_retv, outPc]

/-- no message enters a channel, by a send, a generator or a broadcast, after a close of it -/
theorem C15_nothing_enters {ok} {s : S} (r : Reach ok s) {a b : List Ev} {c i : Nat} {m : Msg}
    (h : s.log = a ++ .put c i m :: b ∨ s.log = a ++ .bcastTo c i m :: b) (k : Nat) : .call k (.close c) ∉ b := by
  rcases h with h | h
  · exact (reach_pc r).split h k
  · exact (reach_pc r).split h k

/-- the second send is made after the close -/
example : ∃ s b, Fresh 1 s ∧ Returns s 1 (.send 0 7 MAX) CLOSED 0 ∧ s.log = since 1 s.log ++ .call 1 (.send 0 7 MAX) :: b ∧ .call 1 (.close 0) ∈ b := by
  obtain ⟨s, b, r, h, h1, h2⟩ := histF [.on 1 (.call (.chMake 1)), .on 1 (.call (.send 0 5 MAX)), .on 1 (.call (.close 0)), .on 1 (.call (.send 0 7 MAX))]
    (i := 1) (c := .send 0 7 MAX) (v := CLOSED) (d := 0) (q := fun b => decide (.call 1 (.close 0) ∈ b)) (by decide +kernel)
  exact ⟨s, b, r, h, h1, of_decide_eq_true h2⟩

/-! ## Receiving -/

/-- a receive made while the channel holds a message gets the oldest one, closed or not, unless the caller was canceled -/
theorem C15_accepted {ok} {s : S} (r : Reach ok s) {i c k : Nat} {cl : Call} {v : Int} {d m : Msg} {b : List Ev} {rest : List (Nat × Msg)}
    (h : Returns s i cl v d) (hb : s.log = since i s.log ++ .call i cl :: b) (hcl : (∃ dl, cl = .recv c dl) ∨ cl = .tryrecv c)
    (hm : content c b = (k, m) :: rest) : (v = OK ∧ d = m) ∨ v = CANCELED := by
  obtain ⟨s0, s1, es, fs, r0, e0, hcur, hu, hs, e1, hf0, hf1, hl, hsi, hl1, ho, hr⟩ := returns_from r h hb
  subst e0
  have x := call_ctx r0 hf0 hu cl
  have key : ∀ tr dl, doCall (callSt s0 i cl) i cl = chanRecv (callSt s0 i cl) i c tr dl → (v = OK ∧ d = m) ∨ v = CANCELED := by
    intro tr dl e
    rw [e] at e1; subst e1
    have hm' : content c (callSt s0 i cl).log = (k, m) :: rest := hm
    obtain ⟨ch, hch, ⟨_, e, _⟩ | ⟨_, _, e⟩ | ⟨_, _, k', m', rest', e, e2, e3⟩ | ⟨_, _, e, _⟩ | ⟨_, _, e, _⟩⟩ := chanRecv_out x hf1
    · rw [hm'] at e; cases e
    · exact .inr (hr _ e).1
    · rw [hm'] at e; cases e
      have := hr _ e2
      exact .inl ⟨this.1, by rw [this.2, e3]⟩
    · rw [hm'] at e; cases e
    · rw [hm'] at e; cases e
  rcases hcl with ⟨dl, rfl⟩ | rfl
  · exact key false dl rfl
  · exact key true 0 rfl

/-- a receive made after a close, when everything was taken, returns `NECO_CLOSED` -- provided that no blocked sender
of the channel ever gave up (see `C15_drained_not_general`) -/
theorem C15_drained_partial {ok} {s : S} (r : Reach ok s) {i c k : Nat} {cl : Call} {v : Int} {d : Msg} {b : List Ev}
    (h : Returns s i cl v d) (hb : s.log = since i s.log ++ .call i cl :: b) (hcl : (∃ dl, cl = .recv c dl) ∨ cl = .tryrecv c)
    (hc : .call k (.close c) ∈ b) (hm : content c b = []) (hw : ∀ j, .withdraw c j ∉ b) : v = CLOSED := by
  obtain ⟨s0, s1, es, fs, r0, e0, hcur, hu, hs, e1, hf0, hf1, hl, hsi, hl1, ho, hr⟩ := returns_from r h hb
  subst e0
  have x := call_ctx r0 hf0 hu cl
  have key : ∀ tr dl, doCall (callSt s0 i cl) i cl = chanRecv (callSt s0 i cl) i c tr dl → v = CLOSED := by
    intro tr dl e
    rw [e] at e1; subst e1
    obtain ⟨ch, hch, hx⟩ := chanRecv_out x hf1
    have hch' : s0.chan c = some ch := hch
    have hrc : ch.rclosed = true := by
      cases hrc : ch.rclosed with
      | true => rfl
      | false =>
        rcases reach_invW r0 hf0 c ch hch' ((reach_shut r0 hc hf0).2 ch hch') hrc with h | ⟨j, h⟩
        · exact absurd hm h
        · exact absurd h (hw j)
    rw [hrc] at hx
    simp at hx
    exact (hr _ hx.2).1
  rcases hcl with ⟨dl, rfl⟩ | rfl
  · exact key false dl rfl
  · exact key true 0 rfl

/-- a coroutine blocked receiving from a closed channel, and not about to be woken: only if a blocked sender gave up -/
theorem C15_blocked_partial {s : S} (hf : s.fault = false) {i c k : Nat} (f : Fresh i s) (hb : Blocked s i) (hw : ¬ Waking s i) (hp : Receiving s i c)
    (hc : .call k (.close c) ∈ s.log) : ∃ j, .withdraw c j ∈ s.log := by
  have r := f.reach
  have hem := C14_recv_partial hf f hb hw hp
  obtain ⟨n, hn, _⟩ := receiver_in f hb hw hp
  have hQ := (reach_invC r).ok hf c
  cases hch : s.chan c with
  | none => rw [hQ.1 hch] at hn; cases hn
  | some ch =>
    have hrc : ch.rclosed = false := by
      cases hrc : ch.rclosed with
      | false => rfl
      | true => rw [((hQ.2 ch hch).rcl hrc).2.2] at hn; cases hn
    rcases reach_invW r hf c ch hch ((reach_shut r hc hf).2 ch hch) hrc with h | h
    · exact absurd hem h
    · exact h

/-- a receive that was given no message does not return `NECO_OK`: a receiver woken by the close returns `NECO_CLOSED`
(unless it was canceled or timed out) -/
theorem C15_woken_partial {s : S} {i c : Nat} (f : Fresh i s) {dl v : Int} {d : Msg} (h : Returns s i (.recv c dl) v d)
    (hm : ∀ m, .take c i m ∉ since i s.log ∧ .bcastTo c i m ∉ since i s.log) : v = CLOSED ∨ v = TIMEDOUT ∨ v = CANCELED := by
  have r := f.reach
  rcases returns_codes r h with hv | hv | hv | hv
  · subst hv
    rcases C12_recv_ok_partial f h with e | e
    · have : .take c i d ∈ (since i s.log).filter (delivTo i) := by rw [e]; simp
      exact absurd (List.mem_filter.mp this).1 (hm d).1
    · have : .bcastTo c i d ∈ (since i s.log).filter (delivTo i) := by rw [e]; simp
      exact absurd (List.mem_filter.mp this).1 (hm d).2
  · exact .inr (.inl hv)
  · exact .inr (.inr hv)
  · exact .inl hv

/-- the first close of a channel wakes every coroutine blocked receiving from it -/
theorem C15_close_wakes_partial {s s' : S} {c j : Nat} (f : Fresh j s) (hs : step s (.call (.close c)) = some s') (hf : s'.fault = false)
    (hn : ∀ k, .call k (.close c) ∉ s.log) (hg : ¬ GenChan c s.log) (hb : Blocked s j) (hw : ¬ Waking s j) (hp : Receiving s j c) : Waking s' j := by
  have r := f.reach
  obtain ⟨i, hcur, hu, _, rfl⟩ := step_call hs
  have hf0 : s.fault = false := by
    have := step_guard hs; simp only [not_or] at this; simpa using this.2.1
  obtain ⟨n, hnq, hno, hns, hnr⟩ := receiver_in f hb hw hp
  have hQ := (reach_invC r).ok hf0 c
  cases hch : s.chan c with
  | none => rw [hQ.1 hch] at hnq; cases hnq
  | some ch =>
    have hO := hQ.2 ch hch
    have hne : s.lists (.chanQ c) ≠ [] := List.ne_nil_of_mem hnq
    have hqr : ch.qrecv = true := by
      cases hq : ch.qrecv with
      | true => rfl
      | false => exact absurd (hno ▸ hO.snd hq n hnq) hns
    have hsc : ch.sclosed = false := by
      cases hsc : ch.sclosed with
      | false => rfl
      | true => rcases (reach_invG r).sc c ch hch hsc with ⟨k, hk⟩ | hk
                · exact absurd hk (hn k)
                · exact absurd hk hg
    have hch' : (callSt s i (.close c)).chan c = some ch := hch
    unfold Waking
    simp only [doCall, chanClose, hch', hsc, chanClose1]
    rw [if_neg (by simp), if_neg (by rw [hO.emp hqr hne, hqr]; simp)]
    rw [yfsr_lists]
    apply closeLoop_wakes
    refine .inr ⟨n, hnq, hno, fun k hk => ?_⟩
    rw [hno] at hk ⊢
    have := hnr k hk
    show (((callSt s i (.close c)).co j).retIdx) = -1
    rw [callSt_field Co.retIdx (by intros; rfl)]; exact this

/-! ## Cases, and a counterexample -/

/-- the message of a blocked sender survives the close -/
example : ∃ s b, Fresh 1 s ∧ Returns s 1 (.recv 0 MAX) OK 7 ∧ s.log = since 1 s.log ++ .call 1 (.recv 0 MAX) :: b ∧ .call 1 (.close 0) ∈ b ∧ content 0 b = [(2, 7), (3, 8)] := by
  obtain ⟨s, b, r, h, h1, h2⟩ := histF [.on 1 (.call (.chMake 0)), .on 1 (.call .start), .on 2 (.call (.send 0 7 MAX)), .on 1 (.call .start), .on 3 (.call (.send 0 8 MAX)), .on 1 (.call (.close 0)),
      .on 1 (.call (.recv 0 MAX))]
    (i := 1) (c := .recv 0 MAX) (v := OK) (d := 7) (q := fun b => decide (.call 1 (.close 0) ∈ b ∧ content 0 b = [(2, 7), (3, 8)])) (by decide +kernel)
  exact ⟨s, b, r, h, h1, of_decide_eq_true h2⟩
/-- and once it is drained a receive returns `NECO_CLOSED` -/
example : ∃ s b, Fresh 1 s ∧ Returns s 1 (.recv 0 MAX) CLOSED 7 ∧ s.log = since 1 s.log ++ .call 1 (.recv 0 MAX) :: b ∧ .call 1 (.close 0) ∈ b ∧ content 0 b = [] ∧ .take 0 1 7 ∈ b ∧
    (∀ e ∈ b, ∀ j, e ≠ .withdraw 0 j) := by
  obtain ⟨s, b, r, h, h1, h2⟩ := histF [.on 1 (.call (.chMake 0)), .on 1 (.call .start), .on 2 (.call (.send 0 7 MAX)), .on 1 (.call (.close 0)), .on 1 (.call (.recv 0 MAX)), .on 1 (.call (.recv 0 MAX))]
    (i := 1) (c := .recv 0 MAX) (v := CLOSED) (d := 7) (q := fun b => decide (.call 1 (.close 0) ∈ b ∧ content 0 b = [] ∧ .take 0 1 7 ∈ b) && b.all (fun e => match e with | .withdraw _ _ => false | _ => true)) (by decide +kernel)
  simp only [Bool.and_eq_true, decide_eq_true_eq, List.all_eq_true] at h2
  refine ⟨s, b, r, h, h1, h2.1.1, h2.1.2.1, h2.1.2.2, fun e he j ej => ?_⟩
  have := h2.2 e he; rw [ej] at this; cases this
/-- a receiver blocked at the close is woken by it -/
example : ∃ s, Fresh 2 s ∧ (∃ s', step s (.call (.close 0)) = some s' ∧ s'.fault = false) ∧ Blocked s 2 ∧ ¬ Waking s 2 ∧ Receiving s 2 0 := by
  obtain ⟨s, r, h⟩ := scriptC [.on 1 (.call (.chMake 0)), .on 1 (.call .start), .on 2 (.call (.recv 0 MAX))]
    (p := fun s => (step s (.call (.close 0))).any (fun t => !t.fault) && decide (2 ∈ s.sco.paused ∧ .co 2 ∉ s.lists .resumers ∧ pending 2 s.log = some (.recv 0 MAX))) (by decide +kernel)
  simp only [Bool.and_eq_true, decide_eq_true_eq, Option.any_eq_true, Bool.not_eq_true'] at h
  exact ⟨s, pending_fresh r h.2.2.2, h.1, h.2.1, h.2.2.1, .inl ⟨_, h.2.2.2⟩⟩

/-- **False of the code**: when the last blocked sender of a closed channel gives up, nobody marks the channel as drained;
a receive then finds it neither closed nor able to deliver -/
theorem C15_drained_not_general : ¬ ∀ (s : S) (i c k : Nat) (cl : Call) (v : Int) (d : Msg) (b : List Ev), Reach Clean s → Returns s i cl v d →
    s.log = since i s.log ++ .call i cl :: b → ((∃ dl, cl = .recv c dl) ∨ cl = .tryrecv c) → .call k (.close c) ∈ b → content c b = [] → v = CLOSED := by
  intro h
  obtain ⟨s, b, r, h0, h1, h2⟩ := histC [.on 1 (.call (.chMake 0)), .on 1 (.call .start), .on 2 (.call (.send 0 7 MAX)), .on 1 (.call (.close 0)), .on 1 (.call (.cancel 2 MAX)),
      .on 2 (.call .yield), .on 1 (.call (.tryrecv 0))]
    (i := 1) (c := .tryrecv 0) (v := EMPTY) (d := 0) (q := fun b => decide (.call 1 (.close 0) ∈ b ∧ content 0 b = [])) (by decide +kernel)
  have h2 := of_decide_eq_true h2
  exact absurd (h s 1 0 1 _ EMPTY 0 b r h0 h1 (.inr rfl) h2.1 h2.2) (by decide)

/-- **False of the code**: and a receiver can sleep for ever on a channel that was closed -/
theorem C15_blocked_not_general : ¬ ∀ (s : S) (i c k : Nat), Reach Clean s → s.fault = false → Blocked s i → ¬ Waking s i → Receiving s i c → .call k (.close c) ∉ s.log := by
  intro h
  obtain ⟨s, r, h0⟩ := scriptC [.on 1 (.call (.chMake 0)), .on 1 (.call .start), .on 2 (.call (.send 0 7 MAX)), .on 1 (.call (.close 0)), .on 1 (.call (.cancel 2 MAX)),
      .on 2 (.call .yield), .on 1 (.call (.recv 0 MAX))]
    (p := fun s => decide (s.fault = false ∧ 1 ∈ s.sco.paused ∧ .co 1 ∉ s.lists .resumers ∧ pending 1 s.log = some (.recv 0 MAX) ∧ .call 1 (.close 0) ∈ s.log)) (by decide +kernel)
  obtain ⟨h1, h2, h3, h4, h5⟩ := of_decide_eq_true h0
  exact h s 1 0 1 r h1 h2 h3 (.inl ⟨_, h4⟩) h5

end Neco.Rt
