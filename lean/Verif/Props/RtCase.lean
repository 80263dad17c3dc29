import Verif.Proof.RtCase3
import Verif.Props.RtEx
/-!
# The message of a select

`neco_chan_case` called after a select that returned the index of a channel.  The history is newest first:
`since i s.log` is what happened since the call of `neco_chan_case`, `b` what happened before it, and
`since i b` what happened since the call before that one, which is the select.
-/
namespace Neco.Rt
open Neco.Err

/-- If no other coroutine ever selects on the channel, `neco_chan_case` called right after a select that returned
its index returns exactly the message that was delivered to the coroutine during that select, or `NECO_CLOSED` if
none was, because the channel was closed.  Partial: the property is claimed for any number of selecting
coroutines, for which it is false (below). -/
theorem C18_case_partial {ok} {s : S} (r : Reach ok s) {i c : Nat} {cl : Call} {cs : List Nat} {v k : Int} {d d0 : Msg} {b : List Ev}
    (h : Returns s i (.chCase c) v d) (hb : s.log = since i s.log ++ .call i (.chCase c) :: b)
    (hr : .ret i cl k d0 ∈ since i b) (hcl : selCs cl = some cs) (hk : 0 ≤ k) (hc : cs[k.toNat]? = some c)
    (only : ∀ j cl' cs', .call j cl' ∈ s.log → selCs cl' = some cs' → c ∈ cs' → j = i) :
    (v = OK ∧ ((since i b).filter (delivTo i) = [.take c i d] ∨ (since i b).filter (delivTo i) = [.bcastTo c i d])) ∨
    (v = CLOSED ∧ (since i b).filter (delivTo i) = []) := by
  obtain ⟨s0, s1, es, fs, r0, e0, hcur, hu, hs, e1, hf0, hf1, hl, hsi, hl1, ho, hrr⟩ := returns_from r h hb
  subst e0
  have ho0 : Only c i s0.log := fun j cl' cs' hm => only j cl' cs' (by rw [hb]; simp [hm])
  have hi := (cur_le (reach_scoWF r0) hcur).2
  have hC := (reach_case r0 hf0 ho0 hi).u hu cl k d0 cs hr hcl hk hc
  have hch : (callSt s0 i (.chCase c)).chan c = s0.chan c := rfl
  rw [show doCall (callSt s0 i (.chCase c)) i (.chCase c) = chanCase (callSt s0 i (.chCase c)) i c from rfl] at e1
  unfold chanCase at e1
  rw [hch] at e1
  cases hx : s0.chan c with
  | none => rw [hx] at e1; rw [e1] at hf1; cases hf1
  | some ch =>
    rw [hx] at e1
    have h2 := hC.2 (ch.lok, ch.lmsg) (by unfold slot; rw [hx]; rfl)
    dsimp only at e1
    rcases h2 with ⟨h2, h3⟩ | ⟨h2, h3⟩
    · dsimp only at h2 h3
      rw [if_pos h2] at e1
      obtain ⟨q1, q2⟩ := hrr OK (by rw [e1]; exact pc_retv _ _ _)
      have q3 : d = ch.lmsg := by rw [q2, e1]; simp [retv_co, upd_co]
      rw [q3]; exact .inl ⟨q1, h3⟩
    · dsimp only at h2 h3
      rw [if_neg (by simp [h2])] at e1
      exact .inr ⟨(hrr CLOSED (by rw [e1]; exact pc_retv _ _ _)).1, h3⟩

/-! ## Cases, and a counterexample -/

/-- is there a select by `i` with result `k` right before, the only one on `c`? -/
def caseB (i c : Nat) (cl : Call) (k : Int) (d0 : Msg) (cs : List Nat) (b : List Ev) : Bool :=
  decide (.ret i cl k d0 ∈ since i b) && decide (selCs cl = some cs) && decide (0 ≤ k) && decide (cs[k.toNat]? = some c) &&
  b.all (fun e => match e with | .call j cl' => (match selCs cl' with | some cs' => !cs'.contains c || decide (j = i) | none => true) | _ => true)

/-- the hypotheses on the past, as tested by `caseB` -/
theorem caseB_sound {i c : Nat} {cl : Call} {k : Int} {d0 : Msg} {cs : List Nat} {b : List Ev} (h : caseB i c cl k d0 cs b = true) :
    .ret i cl k d0 ∈ since i b ∧ selCs cl = some cs ∧ 0 ≤ k ∧ cs[k.toNat]? = some c ∧ ∀ j cl' cs', .call j cl' ∈ b → selCs cl' = some cs' → c ∈ cs' → j = i := by
  simp only [caseB, Bool.and_eq_true, decide_eq_true_eq, List.all_eq_true] at h
  obtain ⟨⟨⟨⟨h1, h2⟩, h3⟩, h4⟩, h5⟩ := h
  refine ⟨h1, h2, h3, h4, fun j cl' cs' hm hcs hc => ?_⟩
  have := h5 _ hm
  simp only [hcs, Bool.or_eq_true, decide_eq_true_eq] at this
  rcases this with h | h
  · simp [hc] at h
  · exact h

/-- a blocked select on two channels completed by a send while another coroutine receives from the same channel -/
example : ∃ s b, Reach Clean s ∧ Returns s 2 (.chCase 1) OK 6 ∧ s.log = since 2 s.log ++ .call 2 (.chCase 1) :: b ∧ caseB 2 1 (.select [0, 1] MAX) 1 0 [0, 1] b = true ∧
    (since 2 b).filter (delivTo 2) = [.take 1 2 6] := by
  obtain ⟨s, b, r, h, h1, h2⟩ := histC [.on 1 (.call (.chMake 0)), .on 1 (.call (.chMake 0)), .on 1 (.call .start), .on 2 (.call (.select [0, 1] MAX)), .on 1 (.call .start), .on 3 (.call (.recv 1 MAX)),
      .on 1 (.call .start), .on 4 (.call (.send 1 6 MAX)), .on 1 (.call (.send 1 7 MAX)), .on 2 (.call (.chCase 1))]
    (i := 2) (c := .chCase 1) (v := OK) (d := 6) (q := fun b => caseB 2 1 (.select [0, 1] MAX) 1 0 [0, 1] b && decide ((since 2 b).filter (delivTo 2) = [.take 1 2 6])) (by decide +kernel)
  rw [Bool.and_eq_true] at h2
  exact ⟨s, b, r, h, h1, h2.1, of_decide_eq_true h2.2⟩
/-- a select on a closed channel -/
example : ∃ s b, Reach Clean s ∧ Returns s 1 (.chCase 0) CLOSED 0 ∧ s.log = since 1 s.log ++ .call 1 (.chCase 0) :: b ∧ caseB 1 0 (.tryselect [0]) 0 0 [0] b = true := by
  obtain ⟨s, b, r, h, h1, h2⟩ := histC [.on 1 (.call (.chMake 0)), .on 1 (.call (.close 0)), .on 1 (.call (.tryselect [0])), .on 1 (.call (.chCase 0))]
    (i := 1) (c := .chCase 0) (v := CLOSED) (d := 0) (q := caseB 1 0 (.tryselect [0]) 0 0 [0]) (by decide +kernel)
  exact ⟨s, b, r, h, h1, h2⟩

/-- **False of the code** for two selecting coroutines: 2 and 3 wait in a select on the same channel; 4 sends 7, which
is delivered to 2, and 1 sends 6, which is delivered to 3, before 2 runs; then `neco_chan_case` gives 2 the message 6,
which was delivered to 3, and the message 7 is lost -/
theorem C18_case_not_general : ¬ ∀ (s : S) (i c : Nat) (cl : Call) (cs : List Nat) (v k : Int) (d d0 : Msg) (b : List Ev), Reach Clean s →
    Returns s i (.chCase c) v d → s.log = since i s.log ++ .call i (.chCase c) :: b →
    .ret i cl k d0 ∈ since i b → selCs cl = some cs → 0 ≤ k → cs[k.toNat]? = some c →
    (v = OK ∧ ((since i b).filter (delivTo i) = [.take c i d] ∨ (since i b).filter (delivTo i) = [.bcastTo c i d])) ∨
    (v = CLOSED ∧ (since i b).filter (delivTo i) = []) := by
  intro h
  obtain ⟨s, b, r, h0, h1, h2⟩ := histC [.on 1 (.call (.chMake 0)), .on 1 (.call .start), .on 2 (.call (.select [0] MAX)), .on 1 (.call .start), .on 3 (.call (.select [0] MAX)),
      .on 1 (.call .start), .on 4 (.call (.send 0 7 MAX)), .on 1 (.call (.send 0 6 MAX)), .on 2 (.call (.chCase 0))]
    (i := 2) (c := .chCase 0) (v := OK) (d := 6) (q := fun b => decide (.ret 2 (.select [0] MAX) 0 0 ∈ since 2 b) && decide ((since 2 b).filter (delivTo 2) = [.take 0 2 7])) (by decide +kernel)
  rw [Bool.and_eq_true, decide_eq_true_eq, decide_eq_true_eq] at h2
  have := h s 2 0 _ [0] OK 0 6 0 b r h0 h1 h2.1 rfl (by decide) rfl
  rw [h2.2] at this
  exact absurd this (by decide)

end Neco.Rt
