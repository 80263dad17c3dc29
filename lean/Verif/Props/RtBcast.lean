import Verif.Proof.RtFrom
import Verif.Proof.RtBcast
import Verif.Props.RtEx
/-!
# Broadcast (C16)
-/
namespace Neco.Rt
open Neco.Err

/-- A broadcast either finds the channel closed, or hands the message to each coroutine in `rs` once, at the moment of the
call, and returns their number.  `rs` contains every coroutine blocked receiving from the channel, and only
coroutines in a receive from it; all of them are about to be woken.  The channel holds what it held before. -/
theorem C16_broadcast_partial {ok} {s : S} (r : Reach ok s) {i c : Nat} {m : Msg} {v : Int} {d : Msg} (h : Returns s i (.bcast c m) v d) :
    ∃ s0 s1 es, Reach ok s0 ∧ Running s0 i ∧ step s0 (.call (.bcast c m)) = some s1 ∧ s.log = es ++ s1.log ∧ (∀ e ∈ es, isCallOf i e = false) ∧
      ((v = CLOSED ∧ ((∃ k, .call k (.close c) ∈ s0.log) ∨ GenChan c s0.log) ∧ s1.log = .call i (.bcast c m) :: s0.log) ∨
       ∃ rs : List Nat, v = rs.length ∧ rs.Nodup ∧ s1.log = rs.map (fun j => .bcastTo c j m) ++ .call i (.bcast c m) :: s0.log ∧
         (∀ j, Fresh j s0 → Blocked s0 j → ¬ Waking s0 j → Receiving s0 j c → j ∈ rs) ∧ (∀ j ∈ rs, Receiving s0 j c ∧ Waking s1 j) ∧
         content c s1.log = content c s0.log) := by
  obtain ⟨b, hb⟩ := returns_call r h
  obtain ⟨s0, s1, es, fs, r0, e0, hcur, hu, hs, e1, hf0, hf1, hl, hsi, hl1, ho, hr⟩ := returns_from r h hb
  refine ⟨s0, s1, es, r0, hcur, hs, hl, ?_, ?_⟩
  · intro e he
    have : e ∈ since i s.log := by rw [hsi]; exact List.mem_append_left _ he
    exact since_not this
  · subst e1
    rcases chanBcast_out r0 hf0 hu hf1 with ⟨h1, h2, h3⟩ | ⟨rs, h1, h2, h3, h4, h5⟩
    · exact .inl ⟨ho _ h1, h2, h3⟩
    · refine .inr ⟨rs, ho _ h1, h2, h3, h4, h5, ?_⟩
      rw [h3]
      clear h1 h2 h3 h4 h5
      induction rs with
      | nil => rfl
      | cons a rs ih => simpa [content] using ih

/-- two coroutines blocked in a receive and one in a select get the message -/
example : ∃ s, Reach Clean s ∧ Returns s 1 (.bcast 0 9) 3 0 := by
  exact retC [.on 1 (.call (.chMake 0)), .on 1 (.call .start), .on 2 (.call (.recv 0 MAX)), .on 1 (.call .start), .on 3 (.call (.recv 0 MAX)), .on 1 (.call .start), .on 4 (.call (.select [0] MAX)),
    .on 1 (.call (.bcast 0 9))] (by decide +kernel)
/-- a broadcast nobody waits for -/
example : ∃ s, Reach Clean s ∧ Returns s 1 (.bcast 0 9) 0 0 := by
  exact retC [.on 1 (.call (.chMake 3)), .on 1 (.call (.send 0 5 MAX)), .on 1 (.call (.bcast 0 9))] (by decide +kernel)
/-- a broadcast after the close -/
example : ∃ s, Reach Clean s ∧ Returns s 1 (.bcast 0 9) CLOSED 0 := by
  exact retC [.on 1 (.call (.chMake 3)), .on 1 (.call (.close 0)), .on 1 (.call (.bcast 0 9))] (by decide +kernel)

/-- **False of the code**: not every receiver that was counted gets the message: it may be canceled (or time out) after the
broadcast and before it runs -/
theorem C16_counted_not_general : ¬ ∀ (s : S) (j c : Nat) (dl : Int) (m : Msg) (v : Int) (d : Msg), Reach Clean s → Returns s j (.recv c dl) v d → .bcastTo c j m ∈ since j s.log → v = OK := by
  intro h
  obtain ⟨s, r, h0⟩ := scriptC [.on 1 (.call (.chMake 0)), .on 1 (.call .start), .on 2 (.call (.recv 0 MAX)), .on 1 (.call .start), .on 3 (.call .yield), .on 1 (.call (.bcast 0 9)), .on 3 (.call (.cancel 2 MAX))]
    (p := fun s => returnsB s 2 (.recv 0 MAX) CANCELED 9 && decide (.bcastTo 0 2 9 ∈ since 2 s.log)) (by decide +kernel)
  simp only [Bool.and_eq_true, decide_eq_true_eq] at h0
  exact absurd (h s 2 0 MAX 9 CANCELED 9 r (returnsB_iff.mp h0.1) h0.2) (by decide)

end Neco.Rt
