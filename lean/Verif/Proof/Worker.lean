import Verif.Spec.Worker

/-! # Lemmas: background workers -/

namespace Neco.Worker

/-- what holds of a thread structure -/
structure Inv (n : Int) (t : T) : Prop where
  ne : t.nentries = nentriesOf n
  np : 0 < t.nentries
  ps : t.pos < t.nentries
  le : t.len ≤ t.nentries
  acc : t.accepted = t.started ++ queue t
  st : t.started = t.finished ++ running t
  flt : t.fault = false
  thr : t.pc ≠ .none → t.th = true

theorem nentries_pos (n : Int) : 0 < nentriesOf n ∧ nentriesOf n ≤ 65536 := by
  unfold nentriesOf; split
  · omega
  · split <;> omega

theorem ring {p l n : Nat} (hp : p < n) (hl : l < n) : (if p + l ≥ n then p + l - n else p + l) = (p + l) % n := by
  split
  · rw [Nat.mod_eq_sub_mod (by omega), Nat.mod_eq_of_lt (by omega)]
  · rw [Nat.mod_eq_of_lt (by omega)]

theorem ring_inj {p i j n : Nat} (hi : i < n) (hj : j < n) (e : (p + i) % n = (p + j) % n) : i = j := by
  have h1 := Nat.div_add_mod (p + i) n
  have h2 := Nat.div_add_mod (p + j) n
  have h3 : n * ((p + i) / n) + (p + j) = n * ((p + j) / n) + (p + i) := by omega
  rcases Nat.lt_trichotomy ((p + i) / n) ((p + j) / n) with h | h | h
  · have := Nat.mul_le_mul_left n h; rw [Nat.mul_succ] at this; omega
  · rw [h] at h3; omega
  · have := Nat.mul_le_mul_left n h; rw [Nat.mul_succ] at this; omega

/-- adding at the end of the ring -/
theorem queue_push {t : T} (hp : t.pos < t.nentries) (hl : t.len < t.nentries) (j : Nat) :
    (List.range (t.len + 1)).map (fun i => if (t.pos + i) % t.nentries = (t.pos + t.len) % t.nentries then j else t.entries ((t.pos + i) % t.nentries)) = queue t ++ [j] := by
  rw [List.range_succ, List.map_append]
  congr 1
  · refine List.map_congr_left (fun i hi => ?_)
    have hi := List.mem_range.mp hi
    rw [if_neg (fun e => by have := ring_inj (by omega) hl e; omega)]
  · simp

theorem inv_submit {n : Int} {t : T} (h : Inv n t) (j : Nat) (c : Create) (hc : c ≠ .minus1) : Inv n (submit t j c).1 := by
  unfold submit
  split
  · rename_i hl
    dsimp only
    rw [ring h.ps hl]
    have hlt : (t.pos + t.len) % t.nentries < t.nentries := Nat.mod_lt _ h.np
    have hq := queue_push h.ps hl j
    have hacc : t.accepted ++ [j] = t.started ++ (queue t ++ [j]) := by rw [h.acc, List.append_assoc]
    have hno : t.th = false → t.pc = .none := by
      intro ht
      cases hp : t.pc with
      | none => rfl
      | _ => exact absurd (h.thr (by rw [hp]; simp)) (by simp [ht])
    split
    · rename_i ht
      have hpn := hno ht
      have hrun : t.started = t.finished := by have := h.st; simp only [running, hpn, List.append_nil] at this; exact this
      cases c with
      | minus1 => exact absurd rfl hc
      | ok =>
        refine ⟨h.ne, h.np, h.ps, hl, ?_, ?_, ?_, fun _ => rfl⟩
        · simp only [queue]; rw [hacc]; congr 1; exact hq.symm
        · simp only [running, List.append_nil]; exact hrun
        · simp [h.flt, hlt]
      | err z =>
        refine ⟨h.ne, h.np, h.ps, hl, ?_, h.st, ?_, ?_⟩
        · simp only [queue]; rw [hacc]; congr 1; exact hq.symm
        · simp [h.flt, hlt]
        · intro hx; exact absurd hpn hx
    · refine ⟨h.ne, h.np, h.ps, hl, ?_, h.st, ?_, h.thr⟩
      · simp only [queue]; rw [hacc]; congr 1; exact hq.symm
      · simp [h.flt, hlt]
  · exact h

theorem inv_thread {n : Int} {t t' : T} (h : Inv n t) (hs : thread t = some t') : Inv n t' := by
  unfold thread at hs
  split at hs
  · cases hs
  · rename_i hp
    split at hs
    · rename_i hl
      cases hs
      have hth := h.thr (by rw [hp]; simp)
      have hpos : (if t.pos + 1 = t.nentries then 0 else t.pos + 1) = (t.pos + 1) % t.nentries := by
        have := h.ps
        split
        · rename_i e; rw [e, Nat.mod_self]
        · rw [Nat.mod_eq_of_lt (by omega)]
      have hq : queue t = t.entries t.pos :: (List.range (t.len - 1)).map (fun i => t.entries (((t.pos + 1) % t.nentries + i) % t.nentries)) := by
        obtain ⟨k, hk⟩ : ∃ k, t.len = k + 1 := ⟨t.len - 1, by omega⟩
        unfold queue
        rw [hk, List.range_succ_eq_map]
        simp only [List.map_cons, List.map_map, Nat.add_zero, Nat.mod_eq_of_lt h.ps, Nat.add_sub_cancel]
        congr 1
        refine List.map_congr_left (fun i _ => ?_)
        simp only [Function.comp]
        rw [Nat.mod_add_mod]; congr 2; omega
      refine ⟨h.ne, h.np, ?_, ?_, ?_, ?_, ?_, fun _ => hth⟩
      · simp only; rw [hpos]; exact Nat.mod_lt _ h.np
      · have := h.le; simp only; omega
      · simp only [queue]
        rw [h.acc, hq, hpos]; simp
      · have := h.st
        simp only [running, hp, List.append_nil] at this
        simp only [running]; rw [this]
      · simp [h.flt, h.ps]
    · cases hs
      have := h.st
      simp only [running, hp] at this
      exact ⟨h.ne, h.np, h.ps, h.le, h.acc, this, h.flt, fun _ => h.thr (by rw [hp]; simp)⟩
  · rename_i j hp
    cases hs
    have := h.st
    simp only [running, hp] at this
    refine ⟨h.ne, h.np, h.ps, h.le, h.acc, ?_, h.flt, fun _ => h.thr (by rw [hp]; simp)⟩
    simp only [running, List.append_nil]; exact this
  · rename_i hp
    have hst := h.st
    simp only [running, hp] at hst
    split at hs
    · cases hs
      exact ⟨h.ne, h.np, h.ps, h.le, h.acc, hst, h.flt, fun e => absurd rfl e⟩
    · cases hs
      exact ⟨h.ne, h.np, h.ps, h.le, h.acc, hst, h.flt, fun _ => h.thr (by rw [hp]; simp)⟩

theorem reach_inv {ok : Act → Prop} (hok : ∀ a, ok a → Posix a) {n : Int} {t : T} (r : Reach ok n t) : Inv n t := by
  induction r with
  | init => exact ⟨rfl, (nentries_pos n).1, (nentries_pos n).1, Nat.zero_le _, rfl, rfl, rfl, fun h => absurd rfl h⟩
  | @step t t' r a h hs ih =>
    cases a with
    | submit j c =>
      simp only [step] at hs; cases hs
      exact inv_submit ih j c (fun e => hok _ h j (by rw [e]))
    | thread => exact inv_thread ih hs
    | close => simp only [step] at hs; cases hs; exact ⟨ih.ne, ih.np, ih.ps, ih.le, ih.acc, ih.st, ih.flt, ih.thr⟩

/-- while there are threads to be had, there is one for a ring that is not empty -/
theorem reach_thread {n : Int} {t : T} (r : Reach Threads n t) : (t.th = true → t.pc ≠ .none) ∧ (t.pc = .none → t.len = 0) := by
  induction r with
  | init => exact ⟨fun h => by simp [new] at h, fun _ => rfl⟩
  | @step t t' r a h hs ih =>
    have hi := reach_inv (ok := Threads) (fun a h j e => by have := h j _ e; cases this) r
    cases a with
    | submit j c =>
      have hc := h j c rfl
      subst hc
      simp only [step] at hs; cases hs
      unfold submit
      split
      · dsimp only
        split
        · exact ⟨fun _ => by simp, fun e => by cases e⟩
        · rename_i ht
          have ht : t.th = true := by simpa using ht
          exact ⟨ih.1, fun e => absurd e (ih.1 ht)⟩
      · exact ih
    | close => simp only [step] at hs; cases hs; exact ih
    | thread =>
      simp only [step] at hs
      unfold thread at hs
      split at hs
      · cases hs
      · split at hs <;> cases hs
        · exact ⟨fun _ => by simp, fun e => by cases e⟩
        · exact ⟨fun _ => by simp, fun e => by cases e⟩
      · cases hs; exact ⟨fun _ => by simp, fun e => by cases e⟩
      · split at hs <;> cases hs
        · rename_i h0; exact ⟨fun e => (by cases e), fun _ => h0⟩
        · exact ⟨fun _ => by simp, fun e => by cases e⟩

theorem serve_step {k : Nat} {t t' : T} (h : thread t = some t') : serve (k + 1) t = serve k t' := by
  simp only [serve, h]

end Neco.Worker
