import Verif.Proof.RtMsg
/-!
# Channels hold what was put into them: the other operations
-/
namespace Neco.Rt
open Neco.Err

theorem bcastLoop_keep {s : S} {c : Nat} {m : Msg} {L : LName} {q : List Node} (h : ∀ n ∈ q, .co n.owner ∉ s.lists L) (h1 : L ≠ .chanQ c) (h2 : L ≠ .resumers) :
    (bcastLoop s c m q).1.lists L = s.lists L := by
  induction q generalizing s with
  | nil => simp [bcastLoop, setList_lists, h1]
  | cons n q ih =>
    have hn := h n List.mem_cons_self
    cases n with
    | co r =>
      simp only [bcastLoop]
      have e : ∀ x, (schedResume (note (upd (setList s (.chanQ c) q) r (fun k => { k with rdat := m })) x) r).lists L = s.lists L := by
        intro x
        have e0 : (note (upd (setList s (.chanQ c) q) r (fun k => { k with rdat := m })) x).lists L = s.lists L := by simp [setList_lists, h1]
        rw [sched_keep (by rw [e0]; exact hn) h2, e0]
      rw [ih, e]
      intro x hx; rw [e]; exact h x (List.mem_cons_of_mem _ hx)
    | case r idx =>
      unfold bcastLoop; split
      · exact ih (fun x hx => h x (List.mem_cons_of_mem _ hx))
      · dsimp only
        generalize hu : (note _ _ : S) = u
        have e0 : u.lists L = s.lists L := by rw [← hu]; simp [setList_lists, h1]
        have e : (schedResume u r).lists L = s.lists L := by
          rw [sched_keep (by rw [e0]; exact hn) h2, e0]
        rw [ih, e]
        intro x hx; rw [e]; exact h x (List.mem_cons_of_mem _ hx)

theorem closeLoop_keep {s : S} {c : Nat} {L : LName} {q : List Node} (h : ∀ n ∈ q, .co n.owner ∉ s.lists L) (h1 : L ≠ .chanQ c) (h2 : L ≠ .resumers) :
    (closeLoop s c q).lists L = s.lists L := by
  induction q generalizing s with
  | nil => simp [closeLoop, setList_lists, h1]
  | cons n q ih =>
    have hn := h n List.mem_cons_self
    cases n with
    | co r =>
      simp only [closeLoop]
      generalize hu : (upd _ _ _ : S) = u
      have e0 : u.lists L = s.lists L := by rw [← hu]; simp [setList_lists, h1]
      have e : (schedResume u r).lists L = s.lists L := by
        rw [sched_keep (by rw [e0]; exact hn) h2, e0]
      rw [ih, e]
      intro x hx; rw [e]; exact h x (List.mem_cons_of_mem _ hx)
    | case r idx =>
      unfold closeLoop; split
      · exact ih (fun x hx => h x (List.mem_cons_of_mem _ hx))
      · dsimp only
        generalize hu : (upd _ _ _ : S) = u
        have e0 : u.lists L = s.lists L := by rw [← hu]; simp [setList_lists, h1]
        rw [ih]
        · rw [sched_keep (L := L) (by show _ ∉ u.lists L; rw [e0]; exact hn) h2]; exact e0
        · intro x hx
          rw [sched_keep (L := L) (by show _ ∉ u.lists L; rw [e0]; exact hn) h2]
          show _ ∉ u.lists L
          rw [e0]; exact h x (List.mem_cons_of_mem _ hx)

theorem selPush_keep {s : S} {i j : Nat} {cs : List Nat} {k : Nat} (h : ∀ x, Node.case i x ∉ s.lists (.chanQ k)) (h1 : k ∉ cs) :
    (selPush s i j cs).lists (.chanQ k) = s.lists (.chanQ k) := by
  induction cs generalizing s j with
  | nil => rfl
  | cons d cs ih =>
    simp only [List.mem_cons, not_or] at h1
    simp only [selPush]
    have e : (push s (.chanQ d) (.case i j)).lists (.chanQ k) = s.lists (.chanQ k) := push_keep (h _) (by simp [h1.1])
    rw [ih ?_ h1.2]
    · exact e
    · intro x; show _ ∉ (push s (.chanQ d) (.case i j)).lists (.chanQ k); rw [e]; exact h x

theorem bcastLoop_hist {s : S} {i c : Nat} {m : Msg} {q : List Node} (h : Hist PM s.log) (hp : pending i s.log = some (.bcast c m)) : Hist PM (bcastLoop s c m q).1.log := by
  induction q generalizing s with
  | nil => exact h
  | cons n q ih =>
    cases n with
    | co r => simp only [bcastLoop]; exact ih ⟨⟨i, hp⟩, h⟩ (by simpa [pending] using hp)
    | case r x =>
      unfold bcastLoop; split
      · exact ih h hp
      · exact ih ⟨⟨i, hp⟩, h⟩ (by simpa [pending] using hp)

/-- nothing is offered by blocked senders -/
theorem QM.recvs {s t : S} {k : Nat} {ch ch' : Chan} (h : QM s k) (hc : s.chan k = some ch) (ho : ch.qrecv = true ∨ s.lists (.chanQ k) = [])
    (hc' : t.chan k = some ch') (hb : ch'.buf = ch.buf) (ho' : ch'.qrecv = true ∨ t.lists (.chanQ k) = []) (hl : content k t.log = content k s.log) : QM t k := by
  have e : ∀ (u : S) (x : Chan), (x.qrecv = true ∨ u.lists (.chanQ k) = []) → offers u x k = [] := by
    intro u x hx; unfold offers; split
    · rfl
    · rename_i hn; rcases hx with hx | hx
      · exact absurd hx hn
      · rw [hx]; rfl
  intro x hx; rw [hc'] at hx; cases hx
  obtain ⟨A, h1, h2⟩ := h ch hc
  exact ⟨A, by rw [hl, h1, e s ch ho, e t _ ho'], by rw [h2, hb]⟩

theorem OpenQ.bcast {s t : S} {i c : Nat} {m : Msg} (h : OpenQ s i) (hL : InvL s) (ht : t = chanBcast s i c m) (hft : t.fault = false)
    (hp : pending i s.log = some (.bcast c m))
    (hm : ∀ k, ∀ n ∈ s.lists (.chanQ k), (t.co n.owner).smsg = (s.co n.owner).smsg) : Hist PM t.log ∧ ∀ k, QM t k := by
  have hadd := chanBcast_adds s i c m
  rw [← ht] at hadd
  have hcont := content_adds hadd (by simp)
  unfold chanBcast at ht
  split at ht
  · subst ht; simp at hft
  rename_i ch hc
  split at ht
  · have hl : t.log = s.log := by rw [ht]; rfl
    exact ⟨by rw [hl]; exact h.hs, fun k => (h.qm k).keep (by rw [ht]; rfl) (by rw [hl]) (fun _ _ _ => by rw [ht]; rfl) (hm k)⟩
  dsimp only at ht
  unfold bcastTry at ht
  by_cases hq : ch.qrecv = true
  · rw [if_pos hq] at ht
    refine ⟨by rw [ht]; simp only [yfsr_log]; exact bcastLoop_hist h.hs hp, fun k => ?_⟩
    refine (h.qm k).keep ?_ (hcont k) (fun ch' e hf' => ?_) (hm k)
    · rw [ht]; simpa using bcastLoop_core s c m _ k
    · have hk : k ≠ c := by rintro rfl; rw [hc] at e; cases e; rw [hq] at hf'; cases hf'
      rw [ht, yfsr_lists, bcastLoop_keep (hL.away (by simp [hk]) (by simp) (by simp)) (by simp [hk]) (by simp)]
  · rw [if_neg hq] at ht
    have hl : t.log = s.log := by rw [ht]; simp
    exact ⟨by rw [hl]; exact h.hs, fun k => (h.qm k).keep (by rw [ht]; simp) (by rw [hl]) (fun _ _ _ => by rw [ht]; simp) (hm k)⟩

/-- taking a message takes the oldest -/
theorem recvNow_msg {s : S} (hu : ∀ k, QOk s k) (hL : InvL s) (hq : ∀ k, QM s k) {c r : Nat} {ch : Chan} (hc : s.chan c = some ch) {m : Msg} {o : Option Nat} {t : S}
    (hr : recvNow s c r ch = some (m, o, t)) : t.log = .take c r m :: s.log ∧ (∃ i rest, content c s.log = (i, m) :: rest) ∧ (∀ k, QM t k) ∧ t.co = s.co ∧
      ∀ k, (t.lists (.chanQ k)).Sublist (s.lists (.chanQ k)) := by
  have hok := (hu c).2 ch hc
  have hcase : ∀ j idx q, s.lists (.chanQ c) = .case j idx :: q → ch.qrecv = false → False := by
    intro j idx q hq hf
    have h1 := hok.snd hf (.case j idx) (by rw [hq]; exact List.mem_cons_self)
    have h2 := hL.pl (.chanQ c) (.case j idx) (by rw [hq]; exact List.mem_cons_self)
    simp only [place] at h2
    rw [h2.1] at h1; cases h1
  obtain ⟨A, hA, hAb⟩ := hq c ch hc
  have hother : ∀ (u : S) (k : Nat), k ≠ c → u.chan k = s.chan k → u.co = s.co → u.lists (.chanQ k) = s.lists (.chanQ k) → u.log = .take c r m :: s.log → QM u k := by
    intro u k hk h1 h2 h3 h4
    exact (hq k).keep (by rw [h1]) (by rw [h4]; simp [content, Ne.symm hk]) (fun _ _ _ => h3) (fun n _ => by rw [h2])
  have hsl : ∀ (k c : Nat) n q, s.lists (.chanQ c) = n :: q → (if k = c then q else s.lists (.chanQ k)).Sublist (s.lists (.chanQ k)) := by
    intro k c n q hq; split
    · rename_i e; subst e; rw [hq]; exact List.sublist_cons_self _ _
    · exact List.Sublist.refl _
  revert hr
  unfold Rt.recvNow
  split
  · rename_i m' buf hb
    rw [hb] at hAb
    obtain ⟨⟨i, m0⟩, A', rfl, e1, e2⟩ : ∃ a A', A = a :: A' ∧ a.2 = m' ∧ A'.map Prod.snd = buf := by
      cases A with
      | nil => cases hAb
      | cons a A' => simp only [List.map_cons, List.cons.injEq] at hAb; exact ⟨a, A', rfl, hAb⟩
    simp only at e1; subst e1
    split
    · rename_i hlq
      intro h; cases h
      refine ⟨rfl, ⟨i, _, by rw [hA]; rfl⟩, fun k => ?_, rfl, fun k => by simp⟩
      by_cases hk : k = c
      · subst hk
        intro ch' e; simp [setChan] at e; subst e
        refine ⟨A', ?_, e2⟩
        simp only [note_log, content, if_pos, setChan_log]
        rw [hA]
        simp [offers, hlq]
      · exact hother _ k hk (by simp [setChan, hk]) rfl (by simp) rfl
    · rename_i j q hlq
      intro h; cases h
      have hqr : ch.qrecv = false := by
        cases h : ch.qrecv with
        | false => rfl
        | true => have := hok.emp h (by rw [hlq]; simp); rw [hb] at this; cases this
      refine ⟨rfl, ⟨i, _, by rw [hA]; rfl⟩, fun k => ?_, rfl, fun k => by simp [setList_lists]; exact hsl _ _ _ _ hlq⟩
      by_cases hk : k = c
      · subst hk
        intro ch' e; simp [setChan] at e; subst e
        refine ⟨A' ++ [(j, (s.co j).smsg)], ?_, by simp [e2]⟩
        simp only [note_log, content, if_pos, setChan_log, setList_log]
        rw [hA]
        simp [offers, hlq, hqr, setList_lists, Node.owner]
      · exact hother _ k hk (by simp [setChan, hk]) rfl (by simp [setList_lists, hk]) rfl
    · rename_i j idx q hlq
      intro _
      exfalso
      refine hcase _ _ _ hlq ?_
      cases h : ch.qrecv with
      | false => rfl
      | true => have := hok.emp h (by rw [hlq]; simp); rw [hb] at this; cases this
  · rename_i hb
    rw [hb] at hAb
    have hA0 := List.map_eq_nil_iff.mp hAb
    subst hA0
    split
    · intro h; cases h
    · rename_i n q hlq
      split
      · intro h; cases h
      · rename_i hqr
        simp only [Bool.not_eq_true] at hqr
        split
        · rename_i j
          intro h; cases h
          have he : content c s.log = (j, (s.co j).smsg) :: q.map (fun n => (n.owner, (s.co n.owner).smsg)) := by
            rw [hA]; simp [offers, hlq, hqr, Node.owner]
          refine ⟨rfl, ⟨j, _, he⟩, fun k => ?_, rfl, fun k => by simp [setList_lists]; exact hsl _ _ _ _ hlq⟩
          by_cases hk : k = c
          · subst hk
            intro ch' e; simp [setChan] at e; subst e
            refine ⟨[], ?_, by simp [hb]⟩
            simp only [note_log, content, if_pos, setChan_log, setList_log, he]
            simp [offers, hqr, setList_lists]
          · exact hother _ k hk (by simp [setChan, hk]) rfl (by simp [setList_lists, hk]) rfl
        · exact (hcase _ _ _ hlq hqr).elim

theorem OpenQ.recv {s t : S} {i c : Nat} {tr : Bool} {dl : Int} (h : OpenQ s i) (hL : InvL s) (ht : t = chanRecv s i c tr dl) (hft : t.fault = false)
    (hm : ∀ k, ∀ n ∈ s.lists (.chanQ k), (t.co n.owner).smsg = (s.co n.owner).smsg) : Hist PM t.log ∧ ∀ k, QM t k := by
  have hsame : t.log = s.log → t.lists = s.lists → t.chan = s.chan → Hist PM t.log ∧ ∀ k, QM t k := fun h1 h2 h3 =>
    ⟨by rw [h1]; exact h.hs, fun k => (h.qm k).keep (by rw [h3]) (by rw [h1]) (fun _ _ _ => by rw [h2]) (hm k)⟩
  unfold chanRecv at ht
  split at ht
  · subst ht; simp at hft
  rename_i ch hc
  split at ht
  · exact hsame (by rw [ht]; rfl) (by rw [ht]; rfl) (by rw [ht]; rfl)
  split at ht
  · exact hsame (by rw [ht]; rfl) (by rw [ht]; rfl) (by rw [ht]; rfl)
  split at ht
  · rename_i m o u hr
    obtain ⟨h1, h2, h3, h4, h5⟩ := recvNow_msg h.ok hL h.qm hc hr
    have hl : t.log = u.log := by rw [ht]; simp
    refine ⟨by rw [hl, h1]; exact ⟨h2, h.hs⟩, fun k => (h3 k).keep (by rw [ht]; simp) (by rw [hl]) (fun _ _ _ => by rw [ht]; simp) (fun n hn => ?_)⟩
    rw [hm k n ((h5 k).subset hn), h4]
  · rename_i hr
    split at ht
    · exact hsame (by rw [ht]; rfl) (by rw [ht]; rfl) (by rw [ht]; rfl)
    have hl : t.log = s.log := by rw [ht]; simp
    have ho : ch.qrecv = true ∨ s.lists (.chanQ c) = [] := by
      unfold recvNow at hr
      (repeat' split at hr) <;> first | (simp at hr; done) | (right; assumption) | (left; assumption)
    refine ⟨by rw [hl]; exact h.hs, fun k => ?_⟩
    by_cases hk : k = c
    · subst hk
      exact (h.qm k).recvs (ch' := { ch with qrecv := true }) hc ho (by rw [ht]; simp [setChan]) rfl (.inl rfl) (by rw [hl])
    · refine (h.qm k).keep (by rw [ht]; simp [setChan, hk]) (by rw [hl]) (fun _ _ _ => ?_) (hm k)
      rw [ht]; simp only [copause_lists, upd_lists, setChan_lists]
      exact push_keep (K := .chanQ c) (h.fr.not (by simp) (by simp)) (by simp [hk])

/-- closing an open channel -/
theorem OpenQ.close1 {s t : S} {i c : Nat} {ch : Chan} {a : Aft} (h : OpenQ s i) (hL : InvL s) (hc : s.chan c = some ch) (ht : t = chanClose1 s i c ch a)
    (hm : ∀ k, ∀ n ∈ s.lists (.chanQ k), (t.co n.owner).smsg = (s.co n.owner).smsg) : Hist PM t.log ∧ ∀ k, QM t k := by
  have hl : t.log = s.log := by rw [ht]; simp
  refine ⟨by rw [hl]; exact h.hs, fun k => ?_⟩
  unfold chanClose1 at ht; dsimp only at ht
  split at ht
  · by_cases hk : k = c
    · subst hk
      intro ch' e
      rw [ht] at e; simp [setChan] at e; subst e
      obtain ⟨A, h1, h2⟩ := h.qm k ch hc
      refine ⟨A, ?_, h2⟩
      rw [hl, h1]; congr 1
      unfold offers; dsimp only; split
      · rfl
      · have : t.lists (.chanQ k) = s.lists (.chanQ k) := by rw [ht]; rfl
        rw [this]
        exact List.map_congr_left (fun n hn => by rw [hm k n hn])
    · exact (h.qm k).keep (by rw [ht]; simp [setChan, hk]) (by rw [hl]) (fun _ _ _ => by rw [ht]; rfl) (hm k)
  · rename_i hn
    simp only [not_or, not_and, Bool.not_eq_false] at hn
    have hcore := fun k => closeLoop_core (setChan s c { ch with sclosed := true }) c ((setChan s c { ch with sclosed := true }).lists (.chanQ c)) k
    have hnil := closeLoop_nil (setChan s c { ch with sclosed := true }) c ((setChan s c { ch with sclosed := true }).lists (.chanQ c))
    have hkp : ∀ k, k ≠ c → (closeLoop (setChan s c { ch with sclosed := true }) c ((setChan s c { ch with sclosed := true }).lists (.chanQ c))).lists (.chanQ k) = s.lists (.chanQ k) := fun k hk => by
      exact closeLoop_keep (c := c) (q := s.lists (.chanQ c)) (L := .chanQ k) (s := setChan s c { ch with sclosed := true }) (fun n hn => hL.away (K := .chanQ c) (L := .chanQ k) (by simp [hk]) (by simp) (by simp) n hn) (by simp [hk]) (by simp)
    generalize closeLoop (setChan s c { ch with sclosed := true }) c ((setChan s c { ch with sclosed := true }).lists (.chanQ c)) = u at *
    by_cases hk : k = c
    · subst hk
      have h1 := hcore k
      simp only [setChan, if_pos, Option.map_some] at h1
      cases hx : u.chan k with
      | none => rw [hx] at h1; cases h1
      | some x =>
        rw [hx] at h1
        simp [core] at h1
        refine (h.qm k).recvs (ch' := { x with rclosed := true, qrecv := false }) hc ?_ (by rw [ht]; simp [closeEnd, hx]) h1.2.2.2.2 (.inr ?_) (by rw [hl])
        · by_cases hq : s.lists (.chanQ k) = []
          · exact .inr hq
          · exact .inl (hn.2 hq)
        · rw [ht]; simp only [yfsr_lists]; exact hnil
    · refine (h.qm k).keep ?_ (by rw [hl]) (fun _ _ _ => ?_) (hm k)
      · rw [ht]; simp only [yfsr_chan, closeEnd, if_neg hk]; rw [hcore]; simp [setChan, hk]
      · rw [ht, yfsr_lists]; exact hkp k hk

theorem OpenQ.select {s t : S} {i : Nat} {cs : List Nat} {tr : Bool} {dl : Int} (h : OpenQ s i) (hL : InvL s) (ht : t = chanSelect s i cs dl tr) (hft : t.fault = false)
    (hm : ∀ k, ∀ n ∈ s.lists (.chanQ k), (t.co n.owner).smsg = (s.co n.owner).smsg) : Hist PM t.log ∧ ∀ k, QM t k := by
  have hsame : t.log = s.log → t.lists = s.lists → t.chan = s.chan → Hist PM t.log ∧ ∀ k, QM t k := fun h1 h2 h3 =>
    ⟨by rw [h1]; exact h.hs, fun k => (h.qm k).keep (by rw [h3]) (by rw [h1]) (fun _ _ _ => by rw [h2]) (hm k)⟩
  unfold chanSelect at ht
  split at ht
  · subst ht; simp at hft
  rename_i hany
  split at ht
  · exact hsame (by rw [ht]; rfl) (by rw [ht]; rfl) (by rw [ht]; rfl)
  split at ht
  · rename_i x c hsc
    split at ht
    · subst ht; simp at hft
    rename_i ch hc
    split at ht
    · exact hsame (by rw [ht]; rfl) (by rw [ht]; rfl) (by rw [ht]; rfl)
    split at ht
    · rename_i m o u hr
      obtain ⟨h1, h2, h3, h4, h5⟩ := recvNow_msg h.ok hL h.qm hc hr
      have hl : t.log = u.log := by rw [ht]; simp
      refine ⟨by rw [hl, h1]; exact ⟨h2, h.hs⟩, fun k => (h3 k).keep ?_ (by rw [hl]) (fun _ _ _ => by rw [ht]; simp) (fun n hn => ?_)⟩
      · rw [ht]; simp
        split
        · rename_i e; subst e; cases u.chan k <;> rfl
        · rfl
      · rw [hm k n ((h5 k).subset hn), h4]
    · subst ht; simp at hft
  · rename_i hsc
    split at ht
    · exact hsame (by rw [ht]; rfl) (by rw [ht]; rfl) (by rw [ht]; rfl)
    have hl : t.log = s.log := by rw [ht]; simp
    refine ⟨by rw [hl]; exact h.hs, fun k => ?_⟩
    have hch : t.chan k = if k ∈ cs then (s.chan k).map (fun ch => { ch with qrecv := true }) else s.chan k := by
      rw [ht]; simp [selPush_chan]
    by_cases hk : k ∈ cs
    · rw [if_pos hk] at hch
      cases hx : s.chan k with
      | none => intro ch' e; rw [hch, hx] at e; cases e
      | some ch =>
        have := selScan_none hsc hk hx
        exact (h.qm k).recvs (ch' := { ch with qrecv := true }) hx this.1.symm (by rw [hch, hx]; rfl) rfl (.inl rfl) (by rw [hl])
    · rw [if_neg hk] at hch
      refine (h.qm k).keep (by rw [hch]) (by rw [hl]) (fun _ _ _ => ?_) (hm k)
      rw [ht]; simp only [copause_lists]
      rw [selPush_keep (s := upd s i _) (fun x hx => h.fr.chanq (k := k) hx rfl) hk]; rfl

end Neco.Rt
