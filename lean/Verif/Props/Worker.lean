import Verif.Proof.Worker

/-! # C36: background workers carry out every accepted job exactly once, in order -/

namespace Neco.Worker

/-- **C36** the jobs are started in the order in which they were accepted, each at most once: those started are the first of those accepted, and the rest is in the queue -/
theorem C36_order {n : Int} {t : T} (r : Reach Posix n t) : t.accepted = t.started ++ queue t := (reach_inv (fun _ h => h) r).acc

/-- **C36** one job is carried out at a time, and each started one to its end before the next -/
theorem C36_one {n : Int} {t : T} (r : Reach Posix n t) : t.started = t.finished ++ running t := (reach_inv (fun _ h => h) r).st

/-- **C36** at most as many jobs are queued as the ring has entries, and no access is outside of the ring -/
theorem C36_bound {n : Int} {t : T} (r : Reach Posix n t) : (queue t).length ≤ nentriesOf n ∧ nentriesOf n ≤ 65536 ∧ t.fault = false := by
  have h := reach_inv (fun _ h => h) r
  refine ⟨?_, (nentries_pos n).2, h.flt⟩
  simp only [queue, List.length_map, List.length_range]; rw [← h.ne]; exact h.le

/-- **C36** a submission writes to the entries of the ring only, and the thread reads from one of them -/
theorem C36_inside {n : Int} {t : T} (r : Reach Posix n t) (j : Nat) (c : Create) :
    (∀ k, nentriesOf n ≤ k → (submit t j c).1.entries k = t.entries k) ∧ t.pos < nentriesOf n ∧
    ∀ t', thread t = some t' → t'.started ≠ t.started → t'.started = t.started ++ [t.entries t.pos] := by
  have h := reach_inv (fun _ h => h) r
  have hp := h.ps
  have hne := h.ne
  refine ⟨fun k hk => ?_, by rw [← hne]; exact hp, fun t' ht hs => ?_⟩
  · unfold submit
    split
    · rename_i hl
      rw [← hne] at hk
      dsimp only
      repeat' split
      all_goals first | rfl | (exfalso; omega) | (exact if_neg (by omega)) | (exact if_neg (by split <;> omega))
    · rfl
  · unfold thread at ht
    split at ht
    · cases ht
    · dsimp only at ht
      split at ht
      · cases ht; rfl
      · cases ht; exact absurd rfl hs
    · cases ht; exact absurd rfl hs
    · split at ht <;> cases ht <;> exact absurd rfl hs

/-- **C36** the ring has as many entries as asked for (32 by default), and there are as many threads as asked for (2 by default), up to 65536 -/
theorem C36_size (n : Int) : (nentriesOf n : Int) = asked 32 n ∧ (nthreadsOf n : Int) = asked 2 n := by
  unfold nentriesOf nthreadsOf asked
  constructor <;> (split <;> (try split) <;> omega)
example : asked 32 0 = 32 ∧ asked 32 7 = 7 ∧ asked 32 100000 = 65536 := by decide

/-- **C36** a job goes to the thread it is pinned to, if there is such a thread, else to an existing one; jobs not pinned go around -/
theorem C36_thread {pin : Int} {next nthreads : Nat} (h : 0 < nthreads) (hn : nthreads ≤ 65536) : pick pin next nthreads < nthreads ∧ (0 ≤ pin → pin < nthreads → (pick pin next nthreads : Int) = pin) ∧
    (pin < 0 → next + 1 < 2 ^ 32 → pick pin (next + 1) nthreads = (pick pin next nthreads + 1) % nthreads) := by
  refine ⟨Nat.mod_lt _ h, ?_, ?_⟩
  · intro h1 h2
    unfold pick
    rw [if_neg (by omega), Nat.mod_eq_of_lt (by omega)]; omega
  · intro h1 h2
    unfold pick
    rw [if_pos h1, if_pos h1, Nat.mod_eq_of_lt (a := next + 1) (by omega), Nat.mod_eq_of_lt (a := next) (by omega), Nat.mod_add_mod]

/-- **C36** a submission is accepted when the queue is not full: the job is added at the end; otherwise it is refused and nothing changes -/
theorem C36_submit {n : Int} {t : T} (r : Reach Posix n t) (j : Nat) {c : Create} (hc : c ≠ .minus1) :
    ((queue t).length < nentriesOf n ∧ (submit t j c).2 = true ∧ queue (submit t j c).1 = queue t ++ [j] ∧ (submit t j c).1.accepted = t.accepted ++ [j] ∧ (submit t j c).1.started = t.started) ∨
    ((queue t).length = nentriesOf n ∧ (submit t j c).2 = false ∧ (submit t j c).1 = t) := by
  have h := reach_inv (fun _ h => h) r
  have hlen : (queue t).length = t.len := by simp [queue]
  rw [hlen, ← h.ne]
  by_cases hl : t.len < t.nentries
  · left
    have hq := queue_push h.ps hl j
    refine ⟨hl, ?_⟩
    unfold submit
    rw [if_pos hl]
    dsimp only
    rw [ring h.ps hl]
    split
    · cases c with
      | minus1 => exact absurd rfl hc
      | ok => exact ⟨rfl, hq, rfl, rfl⟩
      | err z => exact ⟨rfl, hq, rfl, rfl⟩
    · exact ⟨rfl, hq, rfl, rfl⟩
  · right
    refine ⟨by have := h.le; omega, ?_⟩
    unfold submit
    rw [if_neg hl]; exact ⟨rfl, rfl⟩

/-- **C36** every accepted job is carried out, if the system provides threads: as long as one is not finished there is a thread that can go on … -/
theorem C36_alive_partial {n : Int} {t : T} (r : Reach Threads n t) (h : t.finished ≠ t.accepted) : t.pc ≠ .none ∧ (thread t).isSome = true := by
  have hi := reach_inv (ok := Threads) (fun a h j e => by have := h j _ e; cases this) r
  have hp : t.pc ≠ .none := by
    intro e
    apply h
    have hl := (reach_thread r).2 e
    rw [hi.acc, hi.st]; simp [queue, hl, running, e]
  refine ⟨hp, ?_⟩
  unfold thread
  split
  · rename_i e; exact absurd e hp
  all_goals (try split) <;> rfl

/-- … and it is done with all of them after `2 * length of the queue + 1` steps at most, if no more is submitted -/
theorem C36_done_partial {n : Int} : ∀ (k : Nat) {t : T}, Reach Threads n t → work t ≤ k → (serve k t).finished = t.accepted := by
  intro k
  induction k with
  | zero =>
    intro t r hw
    have hi := reach_inv (ok := Threads) (fun a h j e => by have := h j _ e; cases this) r
    have hl : t.len = 0 := by unfold work at hw; omega
    rw [hi.acc, hi.st]
    simp only [serve]
    unfold work at hw
    cases hp : t.pc with
    | busy j => rw [hp] at hw; simp only at hw; omega
    | _ => simp [queue, hl, running, hp]
  | succ k ih =>
    intro t r hw
    have hi := reach_inv (ok := Threads) (fun a h j e => by have := h j _ e; cases this) r
    cases ht : thread t with
    | none =>
      have : t.pc = .none := by
        unfold thread at ht
        split at ht
        · assumption
        · split at ht <;> cases ht
        · cases ht
        · split at ht <;> cases ht
      have hl := (reach_thread r).2 this
      simp only [serve, ht]
      rw [hi.acc, hi.st]; simp [queue, hl, running, this]
    | some t' =>
      have r' : Reach Threads n t' := .step r .thread (by intro _ _ e; cases e) ht
      have hacc : t'.accepted = t.accepted := by
        unfold thread at ht
        split at ht
        · cases ht
        · split at ht <;> cases ht <;> rfl
        · cases ht; rfl
        · split at ht <;> cases ht <;> rfl
      rw [serve_step ht, ← hacc]
      by_cases hw' : work t' ≤ k
      · exact ih r' hw'
      · -- nothing left to do
        have h0 : work t' ≤ work t := by
          unfold thread at ht
          unfold work
          split at ht
          · cases ht
          · split at ht <;> cases ht <;> simp_all <;> omega
          · cases ht; simp_all
          · split at ht <;> cases ht <;> simp_all
        have hk : work t' = k + 1 := by omega
        have hlt : 0 < work t' → work t' < work t := by
          intro hpos
          unfold thread at ht
          unfold work at hpos ⊢
          split at ht
          · cases ht
          · split at ht <;> cases ht <;> simp_all <;> omega
          · cases ht; simp_all
          · split at ht <;> cases ht <;> simp_all
        omega

/-- **C36** when the worker is closed down and the thread is gone, all is done -/
theorem C36_close_partial {n : Int} {t : T} (r : Reach Threads n t) (h : t.pc = .none) : t.finished = t.accepted := by
  have hi := reach_inv (ok := Threads) (fun a h j e => by have := h j _ e; cases this) r
  rw [hi.acc, hi.st]; simp [queue, (reach_thread r).2 h, running, h]

/-- **C36** the thread a job goes to exists, and jobs pinned to the same number go to the same thread -/
theorem C36_pick (pin : Int) (next : Nat) (k : Int) : pick pin next (nthreadsOf k) < nthreadsOf k ∧ (0 ≤ pin → ∀ next', pick pin next' (nthreadsOf k) = pick pin next (nthreadsOf k)) := by
  have h : 0 < nthreadsOf k := by unfold nthreadsOf; (repeat' split) <;> omega
  refine ⟨Nat.mod_lt _ h, fun hp next' => ?_⟩
  unfold pick; rw [if_neg (by omega), if_neg (by omega)]

/-! ## The theorems are not about nothing -/

/-- carry out actions -/
def runs (t : T) : List Act → Option T
  | [] => some t
  | a :: l => (step t a).bind (fun t' => runs t' l)

theorem runs_reach {ok : Act → Prop} {n : Int} : ∀ (l : List Act) {t t' : T}, Reach ok n t → (∀ a ∈ l, ok a) → runs t l = some t' → Reach ok n t'
  | [], t, t', r, _, h => by simp only [runs, Option.some.injEq] at h; subst h; exact r
  | a :: l, t, t', r, ho, h => by
    unfold runs at h
    rw [Option.bind_eq_some_iff] at h
    obtain ⟨u, h1, h2⟩ := h
    exact runs_reach l (.step r a (ho a (by simp)) h1) (fun b hb => ho b (by simp [hb])) h2

/-- a ring of two: wraps around, and refuses the job 14 -/
def exRun : List Act := [.submit 11 .ok, .submit 12 .ok, .thread, .submit 13 .ok, .submit 14 .ok, .thread, .thread, .submit 15 .ok]
example : ∃ t, Reach Threads 2 t ∧ t.accepted = [11, 12, 13, 15] ∧ t.started = [11, 12] ∧ t.finished = [11] ∧ queue t = [13, 15] ∧ t.finished ≠ t.accepted := by
  refine ⟨_, runs_reach exRun (t' := _) .init ?_ rfl, rfl, rfl, rfl, rfl, by decide⟩
  intro a ha j c e
  subst e
  simp [exRun] at ha
  rcases ha with h | h | h | h | h <;> exact h.2
example : ∃ t, Reach Threads 2 t ∧ t.pc = .none ∧ t.accepted = [11, 12, 13, 15] := by
  refine ⟨_, runs_reach (exRun ++ [.close, .thread, .thread, .thread, .thread, .thread, .thread, .thread]) (t' := _) .init ?_ rfl, rfl, rfl⟩
  intro a ha j c e
  subst e
  simp [exRun] at ha
  rcases ha with h | h | h | h | h <;> exact h.2
example : work (new 2) ≤ 0 := by decide

/-- **False of the code**: if the system refuses a thread, the job counts as accepted and is never carried out, whatever is submitted later -/
theorem C36_lost_not_general : ¬ ∀ (n : Int) (t : T), Reach Posix n t → t.finished ≠ t.accepted → (thread t).isSome = true := by
  intro h
  have r : Reach Posix 2 (submit (new 2) 11 (.err false)).1 := .step .init (.submit 11 (.err false)) (by intro j e; cases e) rfl
  exact absurd (h 2 _ r (by decide)) (by decide)

/-- such a job is never started: when the id left behind is not zero, nothing that can happen starts any job again -/
theorem C36_stuck {t : T} (hp : t.pc = .none) (ht : t.th = true) : ∀ (l : List Act) {t' : T}, runs t l = some t' → t'.started = t.started ∧ t'.pc = .none ∧ t'.th = true
  | [], t', h => by simp only [runs, Option.some.injEq] at h; subst h; exact ⟨rfl, hp, ht⟩
  | a :: l, t', h => by
    unfold runs at h
    rw [Option.bind_eq_some_iff] at h
    obtain ⟨u, h1, h2⟩ := h
    have key : u.started = t.started ∧ u.pc = .none ∧ u.th = true := by
      cases a with
      | submit j c =>
        simp only [step] at h1; cases h1
        unfold submit
        split
        · dsimp only; rw [if_neg (by simp [ht])]; exact ⟨rfl, hp, ht⟩
        · exact ⟨rfl, hp, ht⟩
      | thread => simp only [step, thread, hp] at h1; cases h1
      | close => simp only [step] at h1; cases h1; exact ⟨rfl, hp, ht⟩
    obtain ⟨e1, e2, e3⟩ := C36_stuck key.2.1 key.2.2 l h2
    exact ⟨e1.trans key.1, e2, e3⟩

/-- **False for the result the code tests for**: with `-1` the submission is refused although the job is in the queue -/
theorem C36_refused_not_general : ¬ ∀ (n : Int) (t : T) (j : Nat) (c : Create), Reach (fun _ => True) n t → (submit t j c).2 = false → queue (submit t j c).1 = queue t := by
  intro h
  exact absurd (h 2 (new 2) 11 .minus1 .init rfl) (by decide)

end Neco.Worker
