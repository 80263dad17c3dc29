import Verif.Proof.RtMsg4
import Verif.Proof.RtSwitch
/-!
# Blocked senders and receivers are in the queue of their channel
-/
namespace Neco.Rt
open Neco.Err

theorem pending_ne_work {s : S} {i : Nat} (f : Fresh i s) {c : Call} (hp : pending i s.log = some c) (hc : c ≠ .work) : (s.co i).pc ≠ .workWait := by
  have r := f.reach
  intro e; have := (f.coE.ww e).1; rw [((pending_call r).mp hp).1] at this; exact hc this

/-- a coroutine blocked sending, and not about to be woken, is in the queue -/
theorem sender_in {s : S} {i c : Nat} (f : Fresh i s) {m : Msg} (hb : Blocked s i) (hw : ¬ Waking s i) (hp : Sending s i c m) :
    .co i ∈ s.lists (.chanQ c) ∧ (s.co i).pc = .blk .send ∧ (s.co i).smsg = m := by
  have r := f.reach
  have key : ∀ call, pending i s.log = some call → (sendOf (s.co i) = some c) → (∃ dl, call = .send c m dl ∨ call = .genYield m dl) → 
      .co i ∈ s.lists (.chanQ c) ∧ (s.co i).pc = .blk .send ∧ (s.co i).smsg = m := by
    intro call hp hso hcl
    have hcall := ((pending_call r).mp hp).1
    obtain ⟨b, hpc, dl', hbc, _⟩ := blocked_blk r hb hp (pending_ne_work f hp (by rcases hcl with ⟨_, rfl | rfl⟩ <;> simp))
    have : b = .send := by
      rcases hcl with ⟨_, rfl | rfl⟩ <;>
      (cases b <;> simp [BlkC] at hbc <;> first | rfl | (rename_i x; cases x <;> simp [BlkC] at hbc))
    subst this
    refine ⟨?_, hpc, ?_⟩
    · rcases (f.coE.bk _ hpc).lw hb with h | h
      · have h := Classical.not_not.mp h
        obtain ⟨L, h1, h2, h3⟩ := h
        have hpl := (reach_invL r).pl L _ h3
        simp only [Node.owner] at hpl
        cases L <;> simp [place, hpc, hso] at hpl h1 h2
        subst hpl; exact h3
      · exact absurd h hw
    · rcases hcl with ⟨dl, rfl | rfl⟩
      · exact (reach_coX r i).sm hpc c m dl (.inl hcall)
      · exact (reach_coX r i).sm hpc c m dl (.inr hcall)
  rcases hp with ⟨dl, hp⟩ | ⟨dl, hp, hg⟩
  · exact key _ hp (by simp [sendOf, ((pending_call r).mp hp).1]) ⟨dl, .inl rfl⟩
  · exact key _ hp (by simp [sendOf, ((pending_call r).mp hp).1, hg]) ⟨dl, .inr rfl⟩

/-- a coroutine blocked receiving, and not about to be woken, is in the queue -/
theorem receiver_in {s : S} {i c : Nat} (f : Fresh i s) (hb : Blocked s i) (hw : ¬ Waking s i) (hp : Receiving s i c) :
    ∃ n ∈ s.lists (.chanQ c), n.owner = i ∧ (s.co i).pc ≠ .blk .send ∧ ∀ k, n = .case i k → (s.co i).retIdx = -1 := by
  have r := f.reach
  rcases hp with ⟨dl, hp⟩ | ⟨cs, dl, hp, hm⟩
  · have hcall := ((pending_call r).mp hp).1
    obtain ⟨b, hpc, dl', hbc, _⟩ := blocked_blk r hb hp (pending_ne_work f hp (by simp))
    have : b = .recv := by
      cases b <;> simp [BlkC] at hbc <;> first | rfl | (rename_i x; cases x <;> simp [BlkC] at hbc)
    subst this
    rcases (f.coE.bk _ hpc).lw hb with h | h
    · have h := Classical.not_not.mp h
      obtain ⟨L, h1, h2, h3⟩ := h
      have hpl := (reach_invL r).pl L _ h3
      simp only [Node.owner] at hpl
      cases L <;> simp [place, hpc, hcall] at hpl h1 h2
      subst hpl; exact ⟨_, h3, rfl, by rw [hpc]; simp, by simp⟩
    · exact absurd h hw
  · have hcall := ((pending_call r).mp hp).1
    obtain ⟨b, hpc, dl', hbc, _⟩ := blocked_blk r hb hp (pending_ne_work f hp (by simp))
    have : b = .sel := by
      cases b <;> simp [BlkC] at hbc <;> first | rfl | (rename_i x; cases x <;> simp [BlkC] at hbc)
    subst this
    rcases (f.coE.bk _ hpc).lw hb with h | h
    · have h : (s.co i).retIdx = -1 := Classical.not_not.mp h
      obtain ⟨k, hk⟩ := List.getElem?_of_mem hm
      exact ⟨_, (reach_coX r i).se hpc h cs dl hcall k c hk, rfl, by rw [hpc]; simp, fun _ _ => h⟩
    · exact absurd h hw

/-! ## Sent, taken and held -/

theorem unsend_last {i : Nat} {m : Msg} {l1 l2 : List (Nat × Msg)} (h : ∀ x ∈ l2, x.1 ≠ i) : unsend i (l1 ++ (i, m) :: l2) = l1 ++ l2 := by
  unfold unsend
  have : (l1 ++ (i, m) :: l2).reverse = l2.reverse ++ (i, m) :: l1.reverse := by simp
  rw [this, List.eraseP_append_right _ (fun b hb => by have := h b (by simpa using hb); simpa using this)]
  simp

/-- at every moment what was sent is what was taken followed by what is held -/
theorem sent_split {l : List Ev} (h : Hist PM l) (c : Nat) : ∃ T, sent c l = T ++ content c l ∧ T.map Prod.snd = taken c l := by
  induction l with
  | nil => exact ⟨[], rfl, rfl⟩
  | cons e l ih =>
    obtain ⟨T, h1, h2⟩ := ih h.2
    have hp := h.1
    cases e <;> try exact ⟨T, h1, h2⟩
    case put k i m =>
      simp only [sent, content, taken]
      split
      · exact ⟨T, by rw [h1]; simp, h2⟩
      · exact ⟨T, h1, h2⟩
    case take k i m =>
      simp only [sent, content, taken]
      split
      · rename_i e; subst e
        obtain ⟨j, rest, hr⟩ := hp
        exact ⟨T ++ [(j, m)], by rw [h1, hr]; simp, by simp [h2]⟩
      · exact ⟨T, h1, h2⟩
    case withdraw k i =>
      simp only [sent, content, taken]
      split
      · rename_i e; subst e
        obtain ⟨⟨m, l1, l2, hc, hn⟩, _⟩ := hp
        refine ⟨T, ?_, h2⟩
        rw [h1, hc, unsend_last hn, ← List.append_assoc, unsend_last hn, List.append_assoc]
      · exact ⟨T, h1, h2⟩

theorem sn_deliv (i : Nat) (s : S) : (sn i s).filter isDeliv = (since i s.log).filter (delivTo i) := by
  rw [sn_since, List.filter_filter]
  congr 1; funext e
  cases e <;> simp [isDeliv, delivTo, Ev.about]
theorem sn_put (i : Nat) (s : S) : (sn i s).filter isPut = (since i s.log).filter (putBy i) := by
  rw [sn_since, List.filter_filter]
  congr 1; funext e
  cases e <;> simp [isPut, putBy, Ev.about]

theorem unsend_other {i k : Nat} {m : Msg} {l1 l2 : List (Nat × Msg)} (hk : k ≠ i) (h : ∀ x ∈ l2, x.1 ≠ i) :
    ∃ l1' l2', unsend k (l1 ++ (i, m) :: l2) = l1' ++ (i, m) :: l2' ∧ ∀ x ∈ l2', x.1 ≠ i := by
  have hr : (l1 ++ (i, m) :: l2).reverse = l2.reverse ++ (i, m) :: l1.reverse := by simp
  unfold unsend; rw [hr]
  by_cases hx : ∃ e ∈ l2.reverse, (e.1 == k) = true
  · obtain ⟨e, he, hek⟩ := hx
    rw [List.eraseP_append_left (p := fun e : Nat × Msg => e.1 == k) hek _ he]
    refine ⟨l1, (l2.reverse.eraseP (fun e => e.1 == k)).reverse, by simp, ?_⟩
    intro x hx
    have := List.eraseP_subset (List.mem_reverse.mp hx)
    exact h x (List.mem_reverse.mp this)
  · rw [List.eraseP_append_right _ (fun b hb => fun e => hx ⟨b, hb, e⟩), List.eraseP_cons_of_neg (by simp; exact fun e => hk e.symm)]
    exact ⟨(l1.reverse.eraseP (fun e => e.1 == k)).reverse, l2, by simp, h⟩

theorem sent_newest {i c : Nat} {m : Msg} {es b : List Ev} (h : es.filter (putBy i) = [.put c i m]) :
    ∃ l1 l2, sent c (es ++ b) = l1 ++ (i, m) :: l2 ∧ ∀ e ∈ l2, e.1 ≠ i := by
  induction es with
  | nil => cases h
  | cons e es ih =>
    rw [List.cons_append]
    by_cases hp : putBy i e = true
    · rw [List.filter_cons, if_pos hp] at h
      obtain ⟨rfl, hn⟩ := List.cons.inj h
      simp only [sent, if_pos]
      exact ⟨_, [], rfl, by simp⟩
    · rw [List.filter_cons, if_neg hp] at h
      obtain ⟨l1, l2, h1, h2⟩ := ih h
      cases e <;> try exact ⟨l1, l2, h1, h2⟩
      case put k j x =>
        simp only [sent]; split
        · refine ⟨l1, l2 ++ [(j, x)], by rw [h1]; simp, ?_⟩
          intro y hy
          rcases List.mem_append.mp hy with hy | hy
          · exact h2 y hy
          · simp at hy; subst hy; simpa [putBy] using hp
        · exact ⟨l1, l2, h1, h2⟩
      case withdraw k j =>
        simp only [sent]; split
        · rw [h1]; exact unsend_other (by simpa [putBy] using hp) h2
        · exact ⟨l1, l2, h1, h2⟩

end Neco.Rt
