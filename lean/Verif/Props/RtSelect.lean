import Verif.Proof.RtLoop
import Verif.Proof.RtBcast
import Verif.Props.RtChan
/-!
# Select (C17)

`b` is the history at the moment the select was made.
-/
namespace Neco.Rt
open Neco.Err

/-- the channel was closed, or is the channel of a generator (which the end of the generator closes) -/
def MayBeClosed (c : Nat) (b : List Ev) : Prop := (∃ k, .call k (.close c) ∈ b) ∨ GenChan c b

/-- nothing to receive from `c`: it holds no message, and if it was closed then a blocked sender of it gave up
(see `C15_drained_not_general`) -/
def NotReady (c : Nat) (b : List Ev) : Prop := content c b = [] ∧ ∀ k, .call k (.close c) ∈ b → ∃ j, .withdraw c j ∈ b

theorem dry_notReady {ok} {s : S} (r : Reach ok s) (hf : s.fault = false) {c : Nat} (h : Dry s c) : NotReady c s.log := by
  obtain ⟨ch, hch, hr, hc⟩ := h
  refine ⟨hc, fun k hk => ?_⟩
  rcases reach_invW r hf c ch hch ((reach_shut r hk hf).2 ch hch) hr with h | h
  · exact absurd hc h
  · exact h

/-- the outcome of a select depends on the first channel, in the order given, that is ready when it is called:
if there is one, the select takes the oldest message of it (or finds it closed, and takes nothing) and returns its index;
if there is none, the try variant returns `NECO_EMPTY`, and nothing was received -/
theorem C17_select {ok} {s : S} (r : Reach ok s) {i : Nat} {cs : List Nat} {cl : Call} {v : Int} {d : Msg} {b : List Ev}
    (h : Returns s i cl v d) (hb : s.log = since i s.log ++ .call i cl :: b) (hcl : selCs cl = some cs) :
    (v = CANCELED ∧ (since i s.log).filter (delivTo i) = []) ∨
    (∃ (k c : Nat), v = k ∧ cs[k]? = some c ∧ (∀ j c', j < k → cs[j]? = some c' → NotReady c' b) ∧
      ((∃ p m rest, content c b = (p, m) :: rest ∧ (since i s.log).filter (delivTo i) = [.take c i m]) ∨
       (content c b = [] ∧ MayBeClosed c b ∧ (since i s.log).filter (delivTo i) = []))) ∨
    ((∀ c ∈ cs, NotReady c b) ∧ (cl = .tryselect cs → v = EMPTY ∧ (since i s.log).filter (delivTo i) = [])) := by
  obtain ⟨s0, s1, es, fs, r0, e0, hcur, hu, hs, e1, hf0, hf1, hl, hsi, hl1, ho, hr⟩ := returns_from' r h hb
  subst e0
  have x := call_ctx r0 hf0 hu cl
  have key : ∀ tr dl, doCall (callSt s0 i cl) i cl = chanSelect (callSt s0 i cl) i cs dl tr → (cl = .tryselect cs → tr = true) →
      (v = CANCELED ∧ (since i s.log).filter (delivTo i) = []) ∨
      (∃ (k c : Nat), v = k ∧ cs[k]? = some c ∧ (∀ j c', j < k → cs[j]? = some c' → NotReady c' s0.log) ∧
        ((∃ p m rest, content c s0.log = (p, m) :: rest ∧ (since i s.log).filter (delivTo i) = [.take c i m]) ∨
         (content c s0.log = [] ∧ MayBeClosed c s0.log ∧ (since i s.log).filter (delivTo i) = []))) ∨
      ((∀ c ∈ cs, NotReady c s0.log) ∧ (cl = .tryselect cs → v = EMPTY ∧ (since i s.log).filter (delivTo i) = [])) := by
    intro tr dl e htr
    rw [e] at e1; subst e1
    have dry : ∀ c', Dry (callSt s0 i cl) c' → NotReady c' s0.log := by
      rintro c' ⟨ch, h1, h2, h3⟩
      exact dry_notReady r0 hf0 ⟨ch, h1, h2, h3⟩
    have quiet : ∀ w, outPc ((chanSelect (callSt s0 i cl) i cs dl tr).co i).pc = some w → (chanSelect (callSt s0 i cl) i cs dl tr).log = (callSt s0 i cl).log →
        v = w ∧ (since i s.log).filter (delivTo i) = [] := by
      intro w hw hlg
      obtain ⟨h1, h2⟩ := ho w hw
      refine ⟨h1, ?_⟩
      rw [hlg, show (callSt s0 i cl).log = .call i cl :: s0.log from rfl] at hl1
      have : fs = [] := by
        have := congrArg List.length hl1; simp at this
        exact this
      rw [hsi, this, List.append_nil, h2]
    rcases chanSelect_out x hf1 with ⟨e1, e2, _⟩ | ⟨_, k, c, ch, hk, hch, e2, hdry, h3⟩ | ⟨_, hdry, e2, h4, _⟩
    · exact .inl (quiet _ (by rw [e1]; rfl) e2)
    · right; left
      refine ⟨k, c, (ho _ e2).1, hk, fun j c' hj hc' => dry c' (hdry j c' hj hc'), ?_⟩
      rcases h3 with ⟨h3, h4, h5⟩ | ⟨p, m, rest, h3, h4⟩
      · exact .inr ⟨h4, (reach_invG r0).sc c ch hch (((reach_invC r0).ok hf0 c).2 ch hch |>.rcl h3).1, (quiet _ e2 h5).2⟩
      · left
        refine ⟨p, m, rest, h3, ?_⟩
        have hfs : fs = [.take c i m] := by
          have h4 : (chanSelect (callSt s0 i cl) i cs dl tr).log = [.take c i m] ++ .call i cl :: s0.log := h4
          rw [h4] at hl1
          exact (List.append_cancel_right hl1).symm
        rw [hsi, hfs, List.filter_append, (ho _ e2).2]
        simp [delivTo]
    · exact .inr (.inr ⟨fun c hc => dry c (hdry c hc), fun e => quiet _ (by rw [h4 (htr e)]; rfl) e2⟩)
  cases cl <;> simp [selCs] at hcl
  · subst hcl; exact key false _ rfl (by simp)
  · subst hcl; exact key true _ rfl (fun _ => rfl)

/-- a select that returns an index was given at most one message, and if so from the channel with that index -/
theorem C17_one_partial {s : S} {i : Nat} (f : Fresh i s) {cs : List Nat} {dl v : Int} {d : Msg} (h : Returns s i (.select cs dl) v d) (hv : 0 ≤ v) :
    ∃ c, cs[v.toNat]? = some c ∧ ((since i s.log).filter (delivTo i) = [] ∨
      ∃ m, (since i s.log).filter (delivTo i) = [.take c i m] ∨ (since i s.log).filter (delivTo i) = [.bcastTo c i m]) := by
  have r := f.reach
  have hk := (returns_ok f h).2.2
  simp only [CallOk, sn_deliv] at hk
  exact hk hv

/-- a select blocks only while nothing can be received from any of its channels -/
theorem C17_blocks_partial {s : S} (hf : s.fault = false) {i c : Nat} (f : Fresh i s) {cs : List Nat} {dl : Int} (hb : Blocked s i) (hw : ¬ Waking s i)
    (hp : pending i s.log = some (.select cs dl)) (hc : c ∈ cs) : content c s.log = [] :=
  C14_recv_partial hf f hb hw (.inr ⟨cs, dl, hp, hc⟩)

/-! ## Cases, and a counterexample -/

/-- the second of three channels is the first that holds a message -/
example : ∃ s b, Fresh 1 s ∧ Returns s 1 (.select [0, 1, 2] MAX) 1 0 ∧ s.log = since 1 s.log ++ .call 1 (.select [0, 1, 2] MAX) :: b ∧ content 1 b = [(1, 5)] ∧ content 2 b = [(1, 6)] := by
  obtain ⟨s, b, r, h, h1, h2⟩ := histF [.on 1 (.call (.chMake 1)), .on 1 (.call (.chMake 1)), .on 1 (.call (.chMake 1)), .on 1 (.call (.send 1 5 MAX)), .on 1 (.call (.send 2 6 MAX)), .on 1 (.call (.select [0, 1, 2] MAX))]
    (i := 1) (c := .select [0, 1, 2] MAX) (v := 1) (d := 0) (q := fun b => decide (content 1 b = [(1, 5)] ∧ content 2 b = [(1, 6)])) (by decide +kernel)
  exact ⟨s, b, r, h, h1, of_decide_eq_true h2⟩
/-- a blocked select completed by a send -/
example : ∃ s b, Fresh 2 s ∧ Returns s 2 (.select [0, 1] MAX) 1 0 ∧ s.log = since 2 s.log ++ .call 2 (.select [0, 1] MAX) :: b ∧ content 0 b = [] ∧ content 1 b = [] := by
  obtain ⟨s, b, r, h, h1, h2⟩ := histF [.on 1 (.call (.chMake 1)), .on 1 (.call (.chMake 1)), .on 1 (.call .start), .on 2 (.call (.select [0, 1] MAX)), .on 1 (.call (.send 1 6 MAX))]
    (i := 2) (c := .select [0, 1] MAX) (v := 1) (d := 0) (q := fun b => decide (content 0 b = [] ∧ content 1 b = [])) (by decide +kernel)
  exact ⟨s, b, r, h, h1, of_decide_eq_true h2⟩
/-- nothing there -/
example : ∃ s b, Fresh 1 s ∧ Returns s 1 (.tryselect [0, 1]) EMPTY 0 ∧ s.log = since 1 s.log ++ .call 1 (.tryselect [0, 1]) :: b ∧ content 0 b = [] := by
  obtain ⟨s, b, r, h, h1, h2⟩ := histF [.on 1 (.call (.chMake 1)), .on 1 (.call (.chMake 1)), .on 1 (.call (.tryselect [0, 1]))]
    (i := 1) (c := .tryselect [0, 1]) (v := EMPTY) (d := 0) (q := fun b => decide (content 0 b = [])) (by decide +kernel)
  exact ⟨s, b, r, h, h1, of_decide_eq_true h2⟩
/-- a closed channel is ready -/
example : ∃ s b, Fresh 1 s ∧ Returns s 1 (.select [0, 1] MAX) 1 0 ∧ s.log = since 1 s.log ++ .call 1 (.select [0, 1] MAX) :: b ∧ content 1 b = [] ∧ .call 1 (.close 1) ∈ b := by
  obtain ⟨s, b, r, h, h1, h2⟩ := histF [.on 1 (.call (.chMake 1)), .on 1 (.call (.chMake 1)), .on 1 (.call (.close 1)), .on 1 (.call (.select [0, 1] MAX))]
    (i := 1) (c := .select [0, 1] MAX) (v := 1) (d := 0) (q := fun b => decide (content 1 b = [] ∧ .call 1 (.close 1) ∈ b)) (by decide +kernel)
  exact ⟨s, b, r, h, h1, of_decide_eq_true h2⟩

/-- **False of the code** without `Clean`: a wake-up left behind by a canceled select makes the next select return -1
although no channel of it is ready and nobody canceled it -/
theorem C17_error_not_general : ¬ ∀ (s : S) (i : Nat) (cs : List Nat) (dl v : Int) (d : Msg), Reach any s → Returns s i (.select cs dl) v d → 0 ≤ v ∨ v = TIMEDOUT ∨ v = CANCELED := by
  intro h
  obtain ⟨s, r, h0⟩ := retA (staleWake.map .raw ++ [.on 2 (.call (.chMake 0)), .on 2 (.call (.select [1] MAX))]) (i := 2) (c := .select [1] MAX) (v := ERROR) (d := 0) (by decide +kernel)
  exact absurd (h s 2 [1] MAX ERROR 0 r h0) (by decide)

end Neco.Rt
