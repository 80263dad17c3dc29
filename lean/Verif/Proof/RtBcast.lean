import Verif.Proof.RtLoop
import Verif.Proof.RtMsg5
import Verif.Proof.RtFrom
/-!
# The outcome of a broadcast
-/
namespace Neco.Rt
open Neco.Err

theorem since_not {i : Nat} {l : List Ev} {e : Ev} (h : e ∈ since i l) : isCallOf i e = false := by
  unfold since at h
  induction l with
  | nil => cases h
  | cons x l ih =>
    rw [List.takeWhile_cons] at h
    split at h
    · rename_i hx
      rcases List.mem_cons.mp h with rfl | h
      · simpa using hx
      · exact ih h
    · cases h

theorem chanBcast_out {ok} {s : S} {i c : Nat} {m : Msg} (r : Reach ok s) (hf0 : s.fault = false) (hu : (s.co i).pc = .user)
    (hf : (doCall (callSt s i (.bcast c m)) i (.bcast c m)).fault = false) :
    (outPc ((doCall (callSt s i (.bcast c m)) i (.bcast c m)).co i).pc = some CLOSED ∧ ((∃ k, .call k (.close c) ∈ s.log) ∨ GenChan c s.log) ∧
      (doCall (callSt s i (.bcast c m)) i (.bcast c m)).log = .call i (.bcast c m) :: s.log) ∨
    ∃ rs : List Nat, outPc ((doCall (callSt s i (.bcast c m)) i (.bcast c m)).co i).pc = some (rs.length : Int) ∧ rs.Nodup ∧
      (doCall (callSt s i (.bcast c m)) i (.bcast c m)).log = rs.map (fun j => .bcastTo c j m) ++ .call i (.bcast c m) :: s.log ∧
      (∀ j, Fresh j s → Blocked s j → ¬ Waking s j → Receiving s j c → j ∈ rs) ∧
      (∀ j ∈ rs, Receiving s j c ∧ Waking (doCall (callSt s i (.bcast c m)) i (.bcast c m)) j) := by
  have x := call_ctx r hf0 hu (.bcast c m)
  have hL := reach_invL r
  have hQ := (reach_invC r).ok hf0 c
  generalize ht : doCall (callSt s i (.bcast c m)) i (.bcast c m) = t at *
  simp only [doCall, chanBcast] at ht
  cases hch : s.chan c with
  | none =>
    have : (callSt s i (.bcast c m)).chan c = none := hch
    rw [this] at ht; subst ht; cases hf
  | some ch =>
    have hch' : (callSt s i (.bcast c m)).chan c = some ch := hch
    have hO := hQ.2 ch hch
    rw [hch'] at ht; simp only at ht
    split at ht
    · rename_i hsc; subst ht
      exact .inl ⟨by rw [pc_retv]; rfl, (reach_invG r).sc c ch hch hsc, rfl⟩
    · right
      -- every coroutine in the queue of a receiving channel receives from it
      have hrecv : ch.qrecv = true → ∀ n ∈ s.lists (.chanQ c), Receiving s n.owner c := by
        intro hq n hn
        have hp := hL.pl _ _ hn
        have hns := hO.rcv hq n hn
        cases n with
        | co j =>
          simp only [place] at hp
          rcases hp with hp | ⟨_, dl, hp⟩
          · exact absurd hp.1 hns
          · exact .inl ⟨dl, (pending_call r).mpr ⟨hp, by simp⟩⟩
        | case j k =>
          simp only [place] at hp
          obtain ⟨_, cs, dl, hp, hk⟩ := hp
          exact .inr ⟨cs, dl, (pending_call r).mpr ⟨hp, by simp⟩, List.mem_of_getElem? hk⟩
      have hoff : ∀ n, offerOk (callSt s i (.bcast c m)) n ↔ offerOk s n := by
        intro n; unfold offerOk; rw [callSt_field Co.retIdx (by intros; rfl)]
      unfold bcastTry at ht
      split at ht
      · rename_i hq
        have hex : ∀ j k, Node.co j ∈ s.lists (.chanQ c) → Node.case j k ∉ s.lists (.chanQ c) := by
          intro j k h1 h2
          have p1 := hL.pl _ _ h1
          have p2 := hL.pl _ _ h2
          simp only [place, Node.owner] at p1 p2
          rcases p1 with p1 | p1 <;> rw [p1.1] at p2 <;> simp at p2
        obtain ⟨rs, h1, h2, h3, h4, h5⟩ := bcastLoop_spec (s := callSt s i (.bcast c m)) (c := c) (m := m) (q := s.lists (.chanQ c)) (hL.nd _) hex
        simp only [hoff] at h4
        have hlist : (callSt s i (.bcast c m)).lists = s.lists := rfl
        simp only [hlist] at ht
        subst ht
        refine ⟨rs, ?_, h3, h1, ?_, ?_⟩
        · rw [(pc_yfsr ..).choose_spec]; simp [outPc, h2]
        · intro j f hb hw hr
          obtain ⟨n, hn, ho, _, hk⟩ := receiver_in f hb hw hr
          exact (h4 j).mpr ⟨n, hn, ho, fun k hk' => by rw [ho] at hk' ⊢; exact hk k hk'⟩
        · intro j hj
          obtain ⟨n, hn, ho, _⟩ := (h4 j).mp hj
          exact ⟨ho ▸ hrecv hq n hn, h5 j (.inr hj)⟩
      · rename_i hq
        subst ht
        refine ⟨[], ?_, List.nodup_nil, rfl, ?_, by simp⟩
        · rw [(pc_yfsr ..).choose_spec]; simp [outPc]
        · intro j f hb hw hr
          obtain ⟨n, hn, ho, hns, _⟩ := receiver_in f hb hw hr
          exact absurd (ho ▸ hO.snd (by simpa using hq) n hn) hns


end Neco.Rt
