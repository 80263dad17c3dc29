import Verif.Proof.RtGen4
import Verif.Proof.RtRecv
import Verif.Props.RtChan
/-!
# Generators (C20)

A generator is a coroutine started by `neco_gen_start`; `genOf g l = some c` says that `g` is one and that `c` is the channel made for it.
`neco_gen_next` is a receive from that channel.  `b` is the history at the moment the call in question was made.
-/
namespace Neco.Rt
open Neco.Err

/-- `neco_gen_yield` returns `NECO_NOTGENERATOR` exactly when the caller is not a generator -/
theorem C20_notgenerator {ok} {s : S} (r : Reach ok s) {i : Nat} {m : Msg} {dl v : Int} {d : Msg} {b : List Ev}
    (h : Returns s i (.genYield m dl) v d) (hb : s.log = since i s.log ++ .call i (.genYield m dl) :: b) : v = NOTGENERATOR ↔ genOf i b = none := by
  obtain ⟨s0, s1, es, fs, r0, e0, hcur, hu, hs, e1, hf0, hf1, hl, hsi, hl1, ho, hr⟩ := returns_from r h hb
  subst e0
  have hg : (s0.co i).gen = genOf i s0.log := by
    rcases (reach_invE r0).co i with h | ⟨_, h⟩
    · exact h
    · have := reach_gone r0 h; rw [hu] at this; cases this
  have hg' : ((callSt s0 i (.genYield m dl)).co i).gen = genOf i s0.log := by rw [callSt_field Co.gen (by intros; rfl), hg]
  cases hx : genOf i s0.log with
  | none =>
    simp only [iff_true]
    apply ho
    rw [e1]
    simp [doCall, doGenYield, hg', hx, pc_retv, outPc]
  | some c =>
    simp only [reduceCtorEq, iff_false]
    intro hv
    exact genYield_send r h hb hx hv

/-- a successful `neco_gen_yield` puts its value into the generator's channel, once -/
theorem C20_yield_partial {s : S} {i : Nat} (f : Fresh i s) {m : Msg} {dl : Int} {d : Msg} (h : Returns s i (.genYield m dl) OK d) :
    ∃ c, genOf i s.log = some c ∧ (since i s.log).filter (putBy i) = [.put c i m] := by
  have r := f.reach
  have e := (returns_ok f h).2.2
  simp only [CallOk, sn_put] at e
  obtain ⟨c, hg, h2⟩ := e trivial
  refine ⟨c, ?_, h2⟩
  rcases (reach_invE r).co i with h | ⟨h, _⟩
  · rw [hg] at h; exact h.symm
  · rw [hg] at h; cases h

/-- whatever enters the channel of a generator is a value passed to `neco_gen_yield` by it (or was sent by a plain
`neco_chan_send`, for which the interface of generators offers no channel) -/
theorem C20_put {ok} {s : S} (r : Reach ok s) {a b : List Ev} {c i : Nat} {m : Msg} (h : s.log = a ++ .put c i m :: b) :
    (∃ dl, pending i b = some (.send c m dl)) ∨ (genOf i b = some c ∧ ∃ dl, pending i b = some (.genYield m dl)) :=
  (reach_pg r).split h

/-- the values received from a generator, followed by the one it holds, are the values it yielded, in order -/
theorem C20_values {ok} {s : S} (r : Reach ok s) {g c : Nat} (hg : genOf g s.log = some c) (hn : ∀ j m dl, .call j (.send c m dl) ∉ s.log) :
    (sent c s.log).map Prod.snd = taken c s.log ++ (content c s.log).map Prod.snd ∧ ∀ e ∈ sent c s.log, e.1 = g := by
  refine ⟨C12_order r c, fun e he => ?_⟩
  obtain ⟨a, b, hl⟩ := List.append_of_mem (sent_sub he)
  rcases C20_put r hl with ⟨dl, hp⟩ | ⟨h1, _⟩
  · exact absurd (by rw [hl]; simp [pending_mem hp]) (hn e.1 e.2 dl)
  · exact genOf_inj (genOf_keep r hl h1) hg

/-- once a generator has ended and everything it yielded was taken, receiving from it returns `NECO_CLOSED` -- provided it never gave up
a blocked `neco_gen_yield` (see `C20_end_not_general`) -/
theorem C20_end_partial {ok} {s : S} (r : Reach ok s) {i c g : Nat} {cl : Call} {v : Int} {d : Msg} {b : List Ev}
    (h : Returns s i cl v d) (hb : s.log = since i s.log ++ .call i cl :: b) (hcl : (∃ dl, cl = .recv c dl) ∨ cl = .tryrecv c)
    (hg : genOf g b = some c) (hx : .exit g ∈ b) (hm : content c b = []) (hw : ∀ j, .withdraw c j ∉ b) : v = CLOSED := by
  obtain ⟨s0, s1, es, fs, r0, e0, hcur, hu, hs, e1, hf0, hf1, hl, hsi, hl1, ho, hr⟩ := returns_from r h hb
  subst e0
  have x := call_ctx r0 hf0 hu cl
  have key : ∀ tr dl, doCall (callSt s0 i cl) i cl = chanRecv (callSt s0 i cl) i c tr dl → v = CLOSED := by
    intro tr dl e
    rw [e] at e1; subst e1
    obtain ⟨ch, hch, hxx⟩ := chanRecv_out x hf1
    have hch' : s0.chan c = some ch := hch
    have hrc : ch.rclosed = true := by
      cases hrc : ch.rclosed with
      | true => rfl
      | false =>
        rcases reach_invW r0 hf0 c ch hch' (((reach_invE r0).sh hf0 g c hx hg).2 ch hch') hrc with h | ⟨j, h⟩
        · exact absurd hm h
        · exact absurd h (hw j)
    rw [hrc] at hxx
    simp at hxx
    exact (hr _ hxx.2).1
  rcases hcl with ⟨dl, rfl⟩ | rfl
  · exact key false dl rfl
  · exact key true 0 rfl

/-! ## Cases, and a counterexample -/

/-- coroutine 2 is a generator: its second value is received -/
example : ∃ s, Reach Clean s ∧ Returns s 1 (.recv 0 MAX) OK 6 ∧ genOf 2 s.log = some 0 ∧ taken 0 s.log = [5, 6] := by
  obtain ⟨s, r, h⟩ := scriptC [.on 1 (.call .genStart), .on 2 (.call (.genYield 5 MAX)), .on 1 (.call (.recv 0 MAX)), .on 2 (.call (.genYield 6 MAX)), .on 1 (.call (.recv 0 MAX))]
    (p := fun s => returnsB s 1 (.recv 0 MAX) OK 6 && decide (genOf 2 s.log = some 0 ∧ taken 0 s.log = [5, 6])) (by decide +kernel)
  simp only [Bool.and_eq_true, decide_eq_true_eq] at h
  exact ⟨s, r, returnsB_iff.mp h.1, h.2⟩
/-- a yield of the generator -/
example : ∃ s b, Fresh 2 s ∧ Returns s 2 (.genYield 5 MAX) OK 0 ∧ s.log = since 2 s.log ++ .call 2 (.genYield 5 MAX) :: b ∧ genOf 2 b = some 0 := by
  obtain ⟨s, b, r, h, h1, h2⟩ := histF [.on 1 (.call .genStart), .on 2 (.call (.genYield 5 MAX)), .on 1 (.call (.recv 0 MAX))]
    (i := 2) (c := .genYield 5 MAX) (v := OK) (d := 0) (q := fun b => decide (genOf 2 b = some 0)) (by decide +kernel)
  exact ⟨s, b, r, h, h1, of_decide_eq_true h2⟩
/-- a yield outside of a generator -/
example : ∃ s b, Fresh 1 s ∧ Returns s 1 (.genYield 5 MAX) NOTGENERATOR 0 ∧ s.log = since 1 s.log ++ .call 1 (.genYield 5 MAX) :: b ∧ genOf 1 b = none := by
  obtain ⟨s, b, r, h, h1, h2⟩ := histF [.on 1 (.call (.genYield 5 MAX))]
    (i := 1) (c := .genYield 5 MAX) (v := NOTGENERATOR) (d := 0) (q := fun b => decide (genOf 1 b = none)) (by decide +kernel)
  exact ⟨s, b, r, h, h1, of_decide_eq_true h2⟩
/-- the end of a generator -/
example : ∃ s b, Fresh 1 s ∧ Returns s 1 (.recv 0 MAX) CLOSED 5 ∧ s.log = since 1 s.log ++ .call 1 (.recv 0 MAX) :: b ∧ genOf 2 b = some 0 ∧ .exit 2 ∈ b ∧ content 0 b = [] := by
  obtain ⟨s, b, r, h, h1, h2⟩ := histF [.on 1 (.call .genStart), .on 2 (.call (.genYield 5 MAX)), .on 1 (.call (.recv 0 MAX)), .on 2 .finish, .on 1 (.call .yield), .on 1 (.call (.recv 0 MAX))]
    (i := 1) (c := .recv 0 MAX) (v := CLOSED) (d := 5) (q := fun b => decide (genOf 2 b = some 0 ∧ .exit 2 ∈ b ∧ content 0 b = [])) (by decide +kernel)
  exact ⟨s, b, r, h, h1, of_decide_eq_true h2⟩

/-- **False of the code**: a generator that is blocked in `neco_gen_yield` when its consumer calls `neco_gen_close`, and that is then
canceled, leaves a channel that never reports `NECO_CLOSED` -/
theorem C20_end_not_general : ¬ ∀ (s : S) (i c g : Nat) (dl : Int) (v : Int) (d : Msg) (b : List Ev), Reach Clean s → Returns s i (.recv c dl) v d →
    s.log = since i s.log ++ .call i (.recv c dl) :: b → genOf g b = some c → .exit g ∈ b → content c b = [] → v = CLOSED := by
  intro h
  obtain ⟨s, b, r, h0, h1, h2⟩ := histC [.on 1 (.call .genStart), .on 2 (.call (.genYield 5 MAX)), .on 1 (.call (.close 0)), .on 1 (.call (.cancel 2 MAX)),
      .on 2 .finish, .on 1 (.call .yield), .on 1 (.call (.recv 0 0))]
    (i := 1) (c := .recv 0 0) (v := TIMEDOUT) (d := 0) (q := fun b => decide (genOf 2 b = some 0 ∧ .exit 2 ∈ b ∧ content 0 b = [])) (by decide +kernel)
  have h2 := of_decide_eq_true h2
  exact absurd (h s 1 0 2 0 TIMEDOUT 0 b r h0 h1 h2.1 h2.2.1 h2.2.2) (by decide)

end Neco.Rt
