import Verif.Props.RtSync
/-!
# A coroutine stands in line only for the call it is in (C86)
-/
namespace Neco.Rt
open Neco.Err

/-! ## Specification -/

/-- the queue is that of an object, of a coroutine or of the signals, and not one of the two lists of the scheduler -/
def LName.line : LName → Bool
  | .resumers | .iolist => false
  | _ => true

/-- the call, read from the history, that puts this entry in this queue -/
def ForCall (l : List Ev) : LName → Node → Prop
  | .chanQ k, .co i => (∃ m dl, pending i l = some (.send k m dl)) ∨ (∃ m dl, pending i l = some (.genYield m dl) ∧ genOf i l = some k) ∨
      ∃ dl, pending i l = some (.recv k dl)
  | .chanQ k, .case i x => ∃ cs dl, pending i l = some (.select cs dl) ∧ cs[x]? = some k
  | .muQ m, .co i => (∃ dl, pending i l = some (.lock m dl)) ∨ (∃ dl, pending i l = some (.rdlock m dl)) ∨ ∃ v dl, pending i l = some (.cvWait v m dl)
  | .wgQ w, .co i => ∃ dl, pending i l = some (.wgWait w dl)
  | .cvQ v, .co i => ∃ m dl, pending i l = some (.cvWait v m dl)
  | .joinQ t, .co i => ∃ dl, pending i l = some (.join t dl)
  | .cancelQ t, .co i => ∃ dl, pending i l = some (.cancel t dl)
  | .sigQ, .co i => ∃ dl, pending i l = some (.sigWait dl)
  | .resumers, .co _ | .iolist, .co _ => True
  | _, .case _ _ => False

/-- the call is one that gives a message to channel `k` -/
def Gives (l : List Ev) (k i : Nat) : Prop := (∃ m dl, pending i l = some (.send k m dl)) ∨ ∃ m dl, pending i l = some (.genYield m dl) ∧ genOf i l = some k
/-- the call is one that takes a message from channel `k` -/
def Takes (l : List Ev) (k i : Nat) : Prop := (∃ dl, pending i l = some (.recv k dl)) ∨ ∃ cs dl, pending i l = some (.select cs dl) ∧ k ∈ cs

/-! ## Proofs -/

theorem gen_of {ok} {s : S} (r : Reach ok s) {i k : Nat} (h : (s.co i).gen = some k) : genOf i s.log = some k := by
  rcases (reach_invE r).co i with h1 | ⟨h1, _⟩
  · rw [← h1, h]
  · rw [h1] at h; cases h

theorem sends {ok} {s : S} (r : Reach ok s) {i k : Nat} (h : sendOf (s.co i) = some k) : Gives s.log k i := by
  unfold sendOf at h
  split at h
  · rename_i c m dl hc
    cases h
    exact .inl ⟨m, dl, (pending_call r).mpr ⟨hc, by simp⟩⟩
  · rename_i m dl hc
    exact .inr ⟨m, dl, (pending_call r).mpr ⟨hc, by simp⟩, gen_of r h⟩
  · cases h

/-- C86. Every entry of a queue is there for the call its coroutine is in at the time: a finished call leaves no entry
behind, whether it ended well, was canceled or timed out, and a coroutine in its own code or ended stands
nowhere. -/
theorem C86_line {ok} {s : S} (r : Reach ok s) {L : LName} {n : Node} (h : n ∈ s.lists L) : ForCall s.log L n := by
  have hp := (reach_invL r).pl _ _ h
  have pc : ∀ {i : Nat} {c : Call}, (s.co i).call = c → c ≠ .none → pending i s.log = some c := fun h1 h2 => (pending_call r).mpr ⟨h1, h2⟩
  cases n with
  | case i x =>
    cases L <;> simp only [place, Node.owner] at hp
    obtain ⟨_, cs, dl, h1, h2⟩ := hp
    exact ⟨cs, dl, pc h1 (by simp), h2⟩
  | co i =>
    cases L <;> simp only [place, Node.owner] at hp
    · rcases hp with ⟨_, h1⟩ | ⟨_, dl, h1⟩
      · rcases sends r h1 with h2 | h2
        · exact .inl h2
        · exact .inr (.inl h2)
      · exact .inr (.inr ⟨dl, pc h1 (by simp)⟩)
    · rcases hp with ⟨_, ⟨dl, h1⟩, _⟩ | ⟨_, ⟨dl, h1⟩, _⟩ | ⟨_, ⟨v, dl, h1⟩, _⟩
      · exact .inl ⟨dl, pc h1 (by simp)⟩
      · exact .inr (.inl ⟨dl, pc h1 (by simp)⟩)
      · exact .inr (.inr ⟨v, dl, pc h1 (by simp)⟩)
    · obtain ⟨_, dl, h1⟩ := hp; exact ⟨dl, pc h1 (by simp)⟩
    · obtain ⟨_, m, dl, h1⟩ := hp; exact ⟨m, dl, pc h1 (by simp)⟩
    · obtain ⟨_, dl, h1⟩ := hp; exact ⟨dl, pc h1 (by simp)⟩
    · obtain ⟨_, dl, h1⟩ := hp; exact ⟨dl, pc h1 (by simp)⟩
    · trivial
    · obtain ⟨_, dl, h1⟩ := hp; exact ⟨dl, pc h1 (by simp)⟩
    · trivial

/-- C86. In particular who is in no call stands in no line. -/
theorem C86_nowhere {ok} {s : S} (r : Reach ok s) {i : Nat} (h : pending i s.log = none) {L : LName} (hL : L.line = true) {n : Node} (hn : n.owner = i) : n ∉ s.lists L := by
  intro hm
  have := C86_line r hm
  cases n <;> cases L <;> simp only [ForCall, Node.owner] at this hn <;> subst hn <;> simp_all [LName.line]

/-- C86. Nobody stands in a line twice or in two lines; only a select stands in more than one place, with one entry for each
of its channels. -/
theorem C86_once {ok} {s : S} (r : Reach ok s) : (∀ L, (s.lists L).Nodup) ∧
    ∀ L K i n, L.line = true → K.line = true → .co i ∈ s.lists L → n ∈ s.lists K → n.owner = i → n = .co i ∧ K = L := by
  have hi := reach_invL r
  refine ⟨hi.nd, fun L K i n hL hK h1 h2 hn => ?_⟩
  have hc : n = .co i := by
    cases n with
    | co j => exact congrArg _ hn
    | case j x =>
      change j = i at hn
      subst hn
      have p1 := C86_line r h1
      have p2 := C86_line r h2
      cases K <;> simp only [ForCall] at p2
      obtain ⟨cs, dl, p2, _⟩ := p2
      cases L <;> simp only [ForCall, p2] at p1 <;> simp [LName.line] at p1 hL
  subst hc
  exact ⟨rfl, hi.dj _ _ _ h2 h1⟩

/-- C86. In front of a channel there are only coroutines that give or only coroutines that take. -/
theorem C86_sides {ok} {s : S} (r : Reach ok s) (hf : s.fault = false) (k : Nat) :
    (∀ n ∈ s.lists (.chanQ k), Gives s.log k n.owner) ∨ (∀ n ∈ s.lists (.chanQ k), Takes s.log k n.owner) := by
  have hq := (reach_invC r).ok hf k
  cases hch : s.chan k with
  | none => left; rw [hq.1 hch]; simp
  | some ch =>
    have hc := hq.2 ch hch
    cases hr : ch.qrecv with
    | false =>
      left
      intro n hn
      have hb := hc.snd hr n hn
      have hp := (reach_invL r).pl _ _ hn
      cases n with
      | case i x => simp only [place, Node.owner] at hp hb; rw [hp.1] at hb; cases hb
      | co i =>
        simp only [place, Node.owner] at hp hb
        rcases hp with ⟨_, h1⟩ | ⟨h1, _⟩
        · exact sends r h1
        · rw [h1] at hb; cases hb
    | true =>
      right
      intro n hn
      have hb := hc.rcv hr n hn
      have hp := (reach_invL r).pl _ _ hn
      cases n with
      | case i x =>
        simp only [place, Node.owner] at hp
        obtain ⟨_, cs, dl, h1, h2⟩ := hp
        exact .inr ⟨cs, dl, (pending_call r).mpr ⟨h1, by simp⟩, List.mem_of_getElem? h2⟩
      | co i =>
        simp only [place, Node.owner] at hp hb
        rcases hp with ⟨h1, _⟩ | ⟨_, dl, h1⟩
        · exact absurd h1 hb
        · exact .inl ⟨dl, (pending_call r).mpr ⟨h1, by simp⟩⟩

/-- C86. Nobody stands in front of a channel whose memory was given back. -/
theorem C86_freed {ok} {s : S} (r : Reach ok s) (hf : s.fault = false) {k : Nat} (h : s.chan k = none) : s.lists (.chanQ k) = [] :=
  ((reach_invC r).ok hf k).1 h

/-- coroutine 2 selects on two channels and stands in front of both; coroutine 3 receives from the second and is behind it -/
example : ∃ s, Reach Clean s ∧ s.fault = false ∧ s.lists (.chanQ 0) = [.case 2 0] ∧ s.lists (.chanQ 1) = [.case 2 1, .co 3] := by
  obtain ⟨s, r, h⟩ := scriptC [.on 1 (.call (.chMake 0)), .on 1 (.call (.chMake 0)), .on 1 (.call .start), .on 2 (.call (.select [0, 1] MAX)), .on 1 (.call .start), .on 3 (.call (.recv 1 MAX))]
    (p := fun s => decide (s.fault = false ∧ s.lists (.chanQ 0) = [.case 2 0] ∧ s.lists (.chanQ 1) = [.case 2 1, .co 3])) (by decide +kernel)
  exact ⟨s, r, of_decide_eq_true h⟩

end Neco.Rt
