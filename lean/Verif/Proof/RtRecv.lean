import Verif.Proof.RtDrain
import Verif.Proof.RtFrom
import Verif.Proof.RtClose
import Verif.Proof.RtMsg5
/-!
# What a receive decides when it is called
-/
namespace Neco.Rt
open Neco.Err

theorem recvNow_none {s : S} {c r : Nat} {ch : Chan} (hq : QM s c) (hc : s.chan c = some ch) (h : recvNow s c r ch = none) : content c s.log = [] := by
  obtain ⟨A, h1, h2⟩ := hq ch hc
  unfold recvNow at h
  split at h
  · split at h <;> cases h
  · rename_i hb
    rw [hb] at h2
    have hA : A = [] := by simpa using h2
    rw [h1, hA]
    unfold offers
    split at h
    · rename_i hl; rw [hl]; simp
    · split at h
      · rename_i hr; rw [if_pos hr]; rfl
      · split at h <;> cases h

theorem Ctx.closed {t : S} {i c : Nat} (x : Ctx t i) {ch : Chan} (hc : t.chan c = some ch) (h : ch.rclosed = true) : content c t.log = [] := by
  obtain ⟨_, h1, h2⟩ := ((x.Q c).2 ch hc).rcl h
  obtain ⟨A, h3, h4⟩ := x.M c ch hc
  rw [h1] at h4
  have hA : A = [] := by simpa using h4
  rw [h3, hA]; unfold offers; simp [h2]

/-- the outcomes of the first part of a receive -/
theorem chanRecv_out {t : S} {i c : Nat} {tr : Bool} {dl : Int} (x : Ctx t i) (hf : (chanRecv t i c tr dl).fault = false) :
    ∃ ch, t.chan c = some ch ∧
    ((ch.rclosed = true ∧ content c t.log = [] ∧ ((chanRecv t i c tr dl).co i).pc = .ret CLOSED) ∨
     (ch.rclosed = false ∧ (t.co i).canceled = true ∧ ((chanRecv t i c tr dl).co i).pc = .ret CANCELED) ∨
     (ch.rclosed = false ∧ (t.co i).canceled = false ∧ ∃ k m rest, content c t.log = (k, m) :: rest ∧ ((chanRecv t i c tr dl).co i).pc = .ret OK ∧ ((chanRecv t i c tr dl).co i).rdat = m) ∨
     (ch.rclosed = false ∧ (t.co i).canceled = false ∧ content c t.log = [] ∧ tr = true ∧ ((chanRecv t i c tr dl).co i).pc = .ret EMPTY) ∨
     (ch.rclosed = false ∧ (t.co i).canceled = false ∧ content c t.log = [] ∧ tr = false ∧ outPc ((chanRecv t i c tr dl).co i).pc = none)) := by
  generalize ht : chanRecv t i c tr dl = u at *
  unfold chanRecv at ht
  split at ht
  · subst ht; cases hf
  rename_i ch hc
  refine ⟨ch, hc, ?_⟩
  split at ht
  · rename_i hr; subst ht; exact .inl ⟨hr, x.closed hc hr, by rw [pc_retv]⟩
  rename_i hr
  have hr : ch.rclosed = false := by simpa using hr
  split at ht
  · rename_i hcan; subst ht; exact .inr (.inl ⟨hr, hcan, by rw [pc_retv]⟩)
  rename_i hcan
  have hcan : (t.co i).canceled = false := by simpa using hcan
  split at ht
  · rename_i m o w hw
    subst ht
    obtain ⟨_, ⟨k, rest, h2⟩, _⟩ := recvNow_msg x.Q x.L x.M hc hw
    refine .inr (.inr (.inl ⟨hr, hcan, k, m, rest, h2, by rw [pc_resumeOpt, pc_retv], ?_⟩))
    rw [resumeOpt_co]; simp [retv, setPc, upd_co]
  · rename_i hw
    have := recvNow_none (x.M c) hc hw
    split at ht
    · rename_i h; subst ht; exact .inr (.inr (.inr (.inl ⟨hr, hcan, this, h, by rw [pc_retv]⟩)))
    · rename_i h; subst ht; exact .inr (.inr (.inr (.inr ⟨hr, hcan, this, by simpa using h, by rw [pc_copause]; rfl⟩)))

/-- and what they write into the history -/
theorem chanRecv_log {t : S} {i c : Nat} {tr : Bool} {dl : Int} (x : Ctx t i) (hf : (chanRecv t i c tr dl).fault = false) :
    (((chanRecv t i c tr dl).co i).pc = .ret OK ∧ (chanRecv t i c tr dl).log = .take c i ((chanRecv t i c tr dl).co i).rdat :: t.log) ∨
    (((chanRecv t i c tr dl).co i).pc ≠ .ret OK ∧ (chanRecv t i c tr dl).log = t.log) := by
  generalize ht : chanRecv t i c tr dl = u at *
  unfold chanRecv at ht
  split at ht
  · subst ht; cases hf
  rename_i ch hc
  split at ht
  · subst ht; exact .inr ⟨by rw [pc_retv]; decide, by simp⟩
  split at ht
  · subst ht; exact .inr ⟨by rw [pc_retv]; decide, by simp⟩
  split at ht
  · rename_i m o w hw
    subst ht
    obtain ⟨h1, _⟩ := recvNow_msg x.Q x.L x.M hc hw
    refine .inl ⟨by rw [pc_resumeOpt, pc_retv], ?_⟩
    rw [resumeOpt_co]; simp [retv, setPc, upd_co, h1]
  · split at ht
    · subst ht; exact .inr ⟨by rw [pc_retv]; decide, by simp⟩
    · subst ht; exact .inr ⟨by rw [pc_copause]; simp, by simp⟩

/-! ## Nothing enters a closed channel -/

/-- a message enters a channel only before the first close of it -/
def PC : Ev → List Ev → Prop
  | .put c _ _, l | .bcastTo c _ _, l => ∀ k, .call k (.close c) ∉ l
  | _, _ => True

theorem PC.other {e : Ev} (h : e.kind ≠ .put ∧ e.kind ≠ .bcastTo) (b : List Ev) : PC e b := by
  cases e <;> simp [PC, Ev.kind] at h ⊢

theorem chanSend_shut {s : S} {i c : Nat} {m : Msg} {dl : Int} (h : Hist PC s.log) (hc : ∀ ch, s.chan c = some ch → ch.sclosed = false → ∀ k, .call k (.close c) ∉ s.log) :
    Hist PC (chanSend s i c m dl).log := by
  unfold chanSend
  split
  · exact h
  rename_i ch e
  split
  · exact h
  rename_i hs
  split
  · exact h
  have hp : Hist PC (note s (.put c i m)).log := ⟨hc ch e (by simpa using hs), h⟩
  have hl : Hist PC (sendTry (note s (.put c i m)) c m ch).1.log := by
    unfold sendTry; split
    · rcases sendLoop_log (note s (.put c i m)) c m ((note s (.put c i m)).lists (.chanQ c)) with h1 | ⟨r, h1, h2, h3⟩
      · rw [h1.2]; exact hp
      · rw [h2]; exact ⟨trivial, hp⟩
    · exact hp
  dsimp only
  split
  · simpa using hl
  · unfold sendRest; split
    · simpa using hl
    · simpa using hl

theorem bcastLoop_shut {s : S} {c : Nat} {m : Msg} {q : List Node} (h : Hist PC s.log) (hc : ∀ k, .call k (.close c) ∉ s.log) : Hist PC (bcastLoop s c m q).1.log := by
  induction q generalizing s with
  | nil => exact h
  | cons n q ih =>
    cases n with
    | co r =>
      unfold bcastLoop
      apply ih
      · simp; exact ⟨hc, h⟩
      · intro k; simp; exact hc k
    | case r x =>
      unfold bcastLoop; split
      · exact ih h hc
      · apply ih
        · simp; exact ⟨hc, h⟩
        · intro k; simp; exact hc k

theorem chanBcast_shut {s : S} {i c : Nat} {m : Msg} (h : Hist PC s.log) (hc : ∀ ch, s.chan c = some ch → ch.sclosed = false → ∀ k, .call k (.close c) ∉ s.log) :
    Hist PC (chanBcast s i c m).log := by
  unfold chanBcast
  split
  · exact h
  rename_i ch e
  split
  · exact h
  rename_i hs
  simp only [yfsr_log]
  unfold bcastTry; split
  · exact bcastLoop_shut h (hc ch e (by simpa using hs))
  · exact h

theorem reach_pc {ok} {s : S} (r : Reach ok s) : Hist PC s.log := by
  induction r with
  | init a e => simp [init, Hist, PC]
  | @step s s' r a hok hs ih =>
    have key : ∀ c k, s.fault = false → .call k (.close c) ∈ s.log → ∀ ch, s.chan c = some ch → ch.sclosed = true := fun c k hf hm => (reach_shut r hm hf).2
    cases a with
    | call cl =>
      obtain ⟨i, hcur, hu, hn, rfl⟩ := step_call hs
      have hf := step_nofault hs
      have h0 : Hist PC (callSt s i cl).log := ⟨trivial, ih⟩
      have hc : ∀ c, (∀ x, cl ≠ .close x) → ∀ ch, (callSt s i cl).chan c = some ch → ch.sclosed = false → ∀ k, .call k (.close c) ∉ (callSt s i cl).log := by
        intro c hne ch e e1 k hm
        rcases List.mem_cons.mp hm with h | h
        · cases h; exact hne c rfl
        · have := key c k hf h ch e; rw [e1] at this; cases this
      have hq : (∀ k ∈ callKinds cl, k ≠ .put ∧ k ≠ .bcastTo) → Hist PC (doCall (callSt s i cl) i cl).log := fun hk =>
        h0.adds (doCall_adds _ _ _) (fun e b he => PC.other (hk _ he) b)
      cases cl <;> first | (apply hq; simp [callKinds]; done) | skip
      · exact chanSend_shut h0 (hc _ (by simp))
      · exact chanBcast_shut h0 (hc _ (by simp))
      · simp only [doCall, doGenYield]
        split
        · exact h0
        · exact chanSend_shut h0 (hc _ (by simp))
    | _ =>
      apply ih.adds (step_adds hs)
      intro e b he
      apply PC.other
      simp only [stepKinds] at he
      first
      | (simp at he; done)
      | (constructor <;> (intro e'; rw [e'] at he; (repeat' split at he) <;> simp [pcKinds, mainKinds] at he <;> (repeat' split at he) <;> simp at he))

end Neco.Rt
