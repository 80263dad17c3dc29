import Verif.Proof.RtKeep
/-!
# Channels hold what was put into them, in order
-/
namespace Neco.Rt
open Neco.Err

/-- the messages offered by blocked senders -/
def offers (s : S) (ch : Chan) (k : Nat) : List (Nat × Msg) :=
  if ch.qrecv = true then [] else (s.lists (.chanQ k)).map (fun n => (n.owner, (s.co n.owner).smsg))

/-- what channel `k` holds is the buffer followed by the offers of the blocked senders -/
def QM (s : S) (k : Nat) : Prop := ∀ ch, s.chan k = some ch → ∃ A, content k s.log = A ++ offers s ch k ∧ A.map Prod.snd = ch.buf

/-- what must hold of the history at each event about messages -/
def PM : Ev → List Ev → Prop
  | .take c _ m, b => ∃ i rest, content c b = (i, m) :: rest
  | .withdraw c i, b => (∃ m l1 l2, content c b = l1 ++ (i, m) :: l2 ∧ ∀ x ∈ l2, x.1 ≠ i) ∧ ((∃ m dl, pending i b = some (.send c m dl)) ∨ ∃ m dl, pending i b = some (.genYield m dl))
  | .put c i m, b => (∃ dl, pending i b = some (.send c m dl)) ∨ ∃ dl, pending i b = some (.genYield m dl)
  | .bcastTo c _ m, b => ∃ i, pending i b = some (.bcast c m)
  | _, _ => True

def msgKind (k : Kind) : Bool := k == .put || k == .take || k == .withdraw || k == .bcastTo

theorem PM.other {e : Ev} (h : msgKind e.kind = false) (b : List Ev) : PM e b := by
  cases e <;> first | trivial | (simp [msgKind, Ev.kind] at h)

theorem content_other {e : Ev} (c : Nat) (l : List Ev) (h : msgKind e.kind = false ∨ e.kind = .bcastTo) : content c (e :: l) = content c l := by
  cases e <;> first | rfl | (simp [msgKind, Ev.kind] at h)

theorem content_adds {ks : List Kind} {s t : S} (h : Adds ks s t) (hk : ∀ k ∈ ks, msgKind k = false ∨ k = .bcastTo) (c : Nat) : content c t.log = content c s.log := by
  obtain ⟨es, h1, h2⟩ := h
  rw [h1]; clear h1
  induction es with
  | nil => rfl
  | cons e es ih =>
    rw [List.cons_append, content_other _ _ (hk _ (h2 e List.mem_cons_self)), ih (fun x hx => h2 x (List.mem_cons_of_mem _ hx))]

theorem chan_core {o : Option Chan} {p : Option Chan} {ch : Chan} (h : o.map core = p.map core) (e : o = some ch) : ∃ ch', p = some ch' ∧ core ch' = core ch := by
  subst e; cases p with
  | none => simp at h
  | some x => exact ⟨x, rfl, by simpa using h.symm⟩

theorem QM.keep {s t : S} {k : Nat} (h : QM s k) (hc : (t.chan k).map core = (s.chan k).map core) (hl : content k t.log = content k s.log)
    (hq : ∀ ch, s.chan k = some ch → ch.qrecv = false → t.lists (.chanQ k) = s.lists (.chanQ k))
    (hm : ∀ n ∈ s.lists (.chanQ k), (t.co n.owner).smsg = (s.co n.owner).smsg) : QM t k := by
  intro ch e
  obtain ⟨ch', e', hcc⟩ := chan_core hc e
  simp only [core, Prod.mk.injEq] at hcc
  obtain ⟨A, h1, h2⟩ := h ch' e'
  refine ⟨A, ?_, by rw [h2]; exact hcc.2.2.2.2⟩
  rw [hl, h1]; unfold offers
  rw [hcc.2.2.1]
  split
  · rfl
  · rename_i hx
    rw [hq ch' e' (by rw [hcc.2.2.1]; simpa using hx)]
    congr 1
    refine List.map_congr_left (fun n hn => ?_)
    rw [hm n hn]

theorem sendLoop_keep (s : S) (c : Nat) (m : Msg) (q : List Node) {L : LName} (h : L ≠ .chanQ c) : (sendLoop s c m q).1.lists L = s.lists L := by
  induction q generalizing s with
  | nil => simp [sendLoop, setList_lists, h]
  | cons n q ih =>
    cases n with
    | co r => simp [sendLoop, setList_lists, h]
    | case r x => unfold sendLoop; split
                  · exact ih s
                  · simp [setList_lists, h]

theorem sendLoop_log (s : S) (c : Nat) (m : Msg) (q : List Node) :
    ((sendLoop s c m q).2 = none ∧ (sendLoop s c m q).1.log = s.log) ∨ (∃ r, (sendLoop s c m q).2 = some r ∧ (sendLoop s c m q).1.log = .take c r m :: s.log ∧ q ≠ []) := by
  induction q generalizing s with
  | nil => exact .inl ⟨rfl, rfl⟩
  | cons n q ih =>
    cases n with
    | co r => exact .inr ⟨r, rfl, rfl, by simp⟩
    | case r x =>
      unfold sendLoop; split
      · rcases ih s with h | ⟨r, h1, h2, _⟩
        · exact .inl h
        · exact .inr ⟨r, h1, h2, by simp⟩
      · exact .inr ⟨r, rfl, rfl, by simp⟩

/-- the situation in which a channel operation starts -/
structure OpenQ (s : S) (i : Nat) : Prop where
  fr : Free s i
  ok : ∀ k, QOk s k
  qm : ∀ k, QM s k
  hs : Hist PM s.log

theorem Free.chanq {s : S} {i k : Nat} (h : Free s i) {n : Node} (hn : n ∈ s.lists (.chanQ k)) : n.owner ≠ i := by
  intro e; rcases h _ n hn e with h | h <;> cases h

theorem OpenQ.send {s t : S} {i c : Nat} {m : Msg} {dl : Int} (h : OpenQ s i) (ht : t = chanSend s i c m dl) (hft : t.fault = false)
    (hp : (∃ dl, pending i s.log = some (.send c m dl)) ∨ ∃ dl, pending i s.log = some (.genYield m dl))
    (hm : ∀ k, ∀ n ∈ s.lists (.chanQ k), (t.co n.owner).smsg = (s.co n.owner).smsg) : Hist PM t.log ∧ ∀ k, QM t k := by
  have hfr := h.fr
  have keepk : ∀ k, (t.chan k).map core = (s.chan k).map core → content k t.log = content k s.log → (∀ ch, s.chan k = some ch → ch.qrecv = false → t.lists (.chanQ k) = s.lists (.chanQ k)) → QM t k :=
    fun k h1 h2 h3 => (h.qm k).keep h1 h2 h3 (hm k)
  unfold chanSend at ht
  split at ht
  · subst ht; simp at hft
  rename_i ch hc
  have hok := (h.ok c).2 ch hc
  split at ht
  · have hl : t.log = s.log := by rw [ht]; rfl
    exact ⟨by rw [hl]; exact h.hs, fun k => keepk k (by rw [ht]; rfl) (by rw [hl]) (fun _ _ _ => by rw [ht]; rfl)⟩
  split at ht
  · have hl : t.log = s.log := by rw [ht]; rfl
    exact ⟨by rw [hl]; exact h.hs, fun k => keepk k (by rw [ht]; rfl) (by rw [hl]) (fun _ _ _ => by rw [ht]; rfl)⟩
  dsimp only at ht
  have hput : Hist PM (note s (.put c i m)).log := ⟨hp, h.hs⟩
  -- what the loop does
  have hkeep : ∀ L, L ≠ .chanQ c → (sendTry (note s (.put c i m)) c m ch).1.lists L = s.lists L := by
    intro L hL; unfold sendTry; split
    · rw [sendLoop_keep _ _ _ _ hL]; rfl
    · rfl
  have hcore := sendTry_core (note s (.put c i m)) c m ch
  have hlog : ((sendTry (note s (.put c i m)) c m ch).2 = none ∧ (sendTry (note s (.put c i m)) c m ch).1.log = .put c i m :: s.log ∧
      (sendTry (note s (.put c i m)) c m ch).1 = if ch.qrecv = true then setList (note s (.put c i m)) (.chanQ c) [] else note s (.put c i m)) ∨
      (ch.qrecv = true ∧ s.lists (.chanQ c) ≠ [] ∧ ∃ r, (sendTry (note s (.put c i m)) c m ch).2 = some r ∧ (sendTry (note s (.put c i m)) c m ch).1.log = .take c r m :: .put c i m :: s.log) := by
    unfold sendTry
    by_cases hq : ch.qrecv = true
    · rw [if_pos hq, if_pos hq]
      rcases sendLoop_log (note s (.put c i m)) c m ((note s (.put c i m)).lists (.chanQ c)) with h1 | ⟨r, h1, h2, h3⟩
      · exact .inl ⟨h1.1, h1.2, sendLoop_none _ _ _ _ h1.1⟩
      · exact .inr ⟨hq, h3, r, h1, h2⟩
    · rw [if_neg hq, if_neg hq]; exact .inl ⟨rfl, rfl, rfl⟩
  have hcont : ∀ k, k ≠ c → content k (.put c i m :: s.log) = content k s.log := by
    intro k hk; simp [content, Ne.symm hk]
  rcases hlog with ⟨h2, hl, heq⟩ | ⟨hq, hne, r, h2, hl⟩
  · rw [h2] at ht
    simp only at ht
    obtain ⟨A, hA, hAb⟩ := h.qm c ch hc
    have hb : ch.qrecv = true → content c s.log = A := by intro hq; rw [hA, offers, if_pos hq, List.append_nil]
    generalize sendTry (note s (.put c i m)) c m ch = p at *
    unfold sendRest at ht
    split at ht
    · rename_i hlt
      have hlt' : t.log = .put c i m :: s.log := by rw [ht]; exact hl
      refine ⟨by rw [hlt']; exact hput, fun k => ?_⟩
      by_cases hk : k = c
      · subst hk
        intro ch' e
        rw [ht] at e
        simp [setChan] at e; subst e
        have hof : offers s ch k = [] := by
          unfold offers; split
          · rfl
          · rename_i hq
            by_cases hl0 : s.lists (.chanQ k) = []
            · rw [hl0]; rfl
            · have := hok.full (by simpa using hq) hl0; omega
        have hof' : offers t { ch with buf := ch.buf ++ [m] } k = [] := by
          unfold offers at hof ⊢
          split
          · rfl
          · rename_i hq
            simp only at hq
            have hq' : ch.qrecv = false := by simpa using hq
            rw [if_neg hq] at hof
            have : t.lists (.chanQ k) = s.lists (.chanQ k) := by
              rw [ht]; simp only [retv_lists, setChan_lists, heq, if_neg hq]; rfl
            rw [this, List.map_eq_nil_iff.mp hof]; rfl
        refine ⟨A ++ [(i, m)], ?_, by simp [hAb]⟩
        rw [hof', hlt']
        simp [content, hA, hof]
      · refine keepk k ?_ (by rw [hlt', hcont k hk]) (fun _ _ _ => ?_)
        · rw [ht]; simp [setChan, hk]; simpa using hcore k
        · rw [ht]; simp only [retv_lists, setChan_lists]; exact hkeep _ (by simp [hk])
    · rename_i hlt
      have hlt' : t.log = .put c i m :: s.log := by rw [ht]; simpa using hl
      have hpl : ∀ k, (Node.co i) ∉ p.1.lists (.chanQ k) := by
        intro k hn
        have : Node.co i ∈ s.lists (.chanQ k) := by
          by_cases hk : k = c
          · subst hk
            rw [heq] at hn; split at hn
            · simp [setList_lists] at hn
            · exact hn
          · rwa [hkeep _ (by simp [hk])] at hn
        exact hfr.chanq this rfl
      refine ⟨by rw [hlt']; exact hput, fun k => ?_⟩
      by_cases hk : k = c
      · subst hk
        intro ch' e
        rw [ht] at e
        simp [setChan] at e; subst e
        refine ⟨A, ?_, hAb⟩
        have hlists : t.lists (.chanQ k) = p.1.lists (.chanQ k) ++ [.co i] := by
          rw [ht]; simp only [copause_lists, upd_lists, setChan_lists, push, setList_lists, if_pos]
          rw [show (rm p.1 (.co i)).lists (.chanQ k) = p.1.lists (.chanQ k) from rm_keep (hpl k)]
        have hsm : (t.co i).smsg = m := by
          rw [ht, copause_co, if_pos rfl]; split <;> simp [upd_co]
        have hmk := hm k
        rw [hlt']
        simp only [content, if_pos]
        rw [hA]
        unfold offers
        simp only [Bool.false_eq_true, if_false]
        rw [hlists, heq]
        by_cases hq : ch.qrecv = true
        · simp [if_pos hq, setList_lists, Node.owner, hsm]
        · rw [if_neg hq, if_neg hq]
          rw [List.map_append, List.append_assoc]
          simp only [List.map_cons, List.map_nil, note_lists]
          rw [show (Node.co i).owner = i from rfl, hsm]
          congr 2
          exact List.map_congr_left (fun n hn => by rw [hmk n hn])
      · refine keepk k ?_ (by rw [hlt', hcont k hk]) (fun _ _ _ => ?_)
        · rw [ht]; simp [setChan, hk]; simpa using hcore k
        · rw [ht]; simp only [copause_lists, upd_lists, setChan_lists]
          rw [push_keep (K := .chanQ c) (hpl k) (by simp [hk])]; exact hkeep _ (by simp [hk])
  · rw [h2] at ht
    simp only at ht
    have hlt' : t.log = .take c r m :: .put c i m :: s.log := by rw [ht]; simpa using hl
    have he : content c s.log = [] := by
      obtain ⟨A, hA, hAb⟩ := h.qm c ch hc
      rw [hA, offers, if_pos hq]
      rw [hok.emp hq hne] at hAb
      rw [List.map_eq_nil_iff.mp hAb]; rfl
    refine ⟨by rw [hlt']; exact ⟨⟨i, [], by simp [content, he]⟩, hput⟩, fun k => ?_⟩
    have hck : content k t.log = content k s.log := by
      rw [hlt']
      by_cases hk : k = c
      · subst hk; simp [content, he]
      · simp [content, Ne.symm hk]
    refine keepk k (by rw [ht]; simpa using hcore k) hck (fun ch' e hf' => ?_)
    have hk : k ≠ c := by rintro rfl; rw [hc] at e; cases e; rw [hq] at hf'; cases hf'
    rw [ht]; simp only [scoResume_lists, retv_lists]; exact hkeep _ (by simp [hk])

end Neco.Rt
