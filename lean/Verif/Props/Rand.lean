import Verif.Model.Rand
import Verif.Spec.Rand
/-! # C43: the pseudorandom generator -/
namespace Neco.Rand

/-- Specification: the infinite byte stream of a seed; byte `4 q + r` is byte `r` of the output of
the `q+1`-st state. Independent of any buffer or chunk. -/
def streamByte (seed : BitVec 64) (i : Nat) : BitVec 8 :=
  (rgen (Nat.repeat rstep (i / 4 + 1) seed)).extractLsb' (8 * (i % 4)) 8

theorem repeat_shift (f : α → α) : ∀ n x, Nat.repeat f n (f x) = Nat.repeat f (n+1) x := by
  intro n
  induction n with
  | zero => intro x; rfl
  | succ n ih => intro x; show f (Nat.repeat f n (f x)) = f (Nat.repeat f (n+1) x); rw [ih]

theorem repeat_add (f : α → α) (x : α) : ∀ n m, Nat.repeat f n (Nat.repeat f m x) = Nat.repeat f (m+n) x := by
  intro n m
  induction n with
  | zero => rfl
  | succ n ih => show f _ = f (Nat.repeat f (m+n) x); rw [ih]

theorem streamByte_shift (seed : BitVec 64) (i : Nat) : streamByte (rstep seed) i = streamByte seed (4 + i) := by
  unfold streamByte
  rw [repeat_shift]
  have h1 : (4 + i) / 4 = i / 4 + 1 := by omega
  have h2 : (4 + i) % 4 = i % 4 := by omega
  rw [h1, h2]

theorem bytes4_eq (seed : BitVec 64) : bytes4 (rgen (rstep seed)) = (List.range 4).map (streamByte seed) := by
  simp [bytes4, List.range, List.range.loop, streamByte, Nat.repeat]

/-- C43. Requesting `n` bytes returns exactly the first `n` bytes of the seed's stream; the seed moves
on by ⌈n/4⌉ steps.  In particular the bytes depend only on the seed, and there are exactly `n`. -/
theorem C43_stream (n : Nat) (seed : BitVec 64) :
    pcgBuf n seed = ((List.range n).map (streamByte seed), Nat.repeat rstep ((n + 3) / 4) seed) := by
  induction n using Nat.strongRecOn generalizing seed with
  | ind n ih =>
    rw [pcgBuf]
    by_cases h4 : 4 ≤ n
    · rw [if_pos h4]
      simp only [rnext, ih (n-4) (by omega)]
      congr 1
      · rw [bytes4_eq]
        obtain ⟨m, rfl⟩ : ∃ m, n = 4 + m := ⟨n - 4, by omega⟩
        rw [List.range_add, List.map_append]
        refine congrArg _ ?_
        rw [show 4 + m - 4 = m by omega, List.map_map]
        apply List.map_congr_left
        intro i _; simp [streamByte_shift]
      · rw [repeat_shift]; congr 1; omega
    · rw [if_neg h4]
      by_cases h0 : n > 0
      · rw [if_pos h0]
        simp only [rnext]
        congr 1
        · rw [bytes4_eq, ← List.map_take, List.take_range]
          congr 2; omega
        · rw [show (n+3)/4 = 1 by omega]; rfl
      · obtain rfl : n = 0 := by omega
        simp [Nat.repeat]

/-- C43. Splitting a request at a multiple of four does not change the bytes nor the final seed. -/
theorem C43_split (n m : Nat) (seed : BitVec 64) (h : n % 4 = 0) :
    pcgBuf (n + m) seed =
      ((pcgBuf n seed).1 ++ (pcgBuf m (pcgBuf n seed).2).1, (pcgBuf m (pcgBuf n seed).2).2) := by
  simp only [C43_stream]
  congr 1
  · rw [List.range_add, List.map_append, List.map_map]
    refine congrArg _ ?_
    apply List.map_congr_left
    intro i _
    simp only [Function.comp, streamByte]
    rw [repeat_add]
    have h1 : (n + i) / 4 = n / 4 + i / 4 := by omega
    have h2 : (n + i) % 4 = i % 4 := by omega
    have h3 : (n + 3) / 4 = n / 4 := by omega
    rw [h1, h2, h3, Nat.add_assoc]
  · rw [repeat_add]; congr 1; omega

example : (8 % 4 = 0) ∧ (pcgBuf 8 42#64).1 ≠ (pcgBuf 8 43#64).1 := by decide +kernel

/-- C43. `neco_rand` (which works in chunks of 256 bytes and yields in between) returns the seed's stream,
provided the coroutines that run during its yields leave the shared seed alone. -/
theorem C43_rand (interfere : Nat → BitVec 64 → BitVec 64) (hi : ∀ k s, interfere k s = s)
    (k n : Nat) (seed : BitVec 64) : randLoop interfere k n seed = pcgBuf n seed := by
  induction n using Nat.strongRecOn generalizing seed k with
  | ind n ih =>
    rw [randLoop]
    by_cases h0 : n = 0
    · subst h0; simp [pcgBuf]
    · rw [if_neg h0]
      by_cases h : n < 256
      · simp [h]
      · simp only [h, if_false]
        by_cases h2 : n - 256 = 0
        · simp only [h2, if_true]; obtain rfl : n = 256 := by omega
          rfl
        · simp only [h2, if_false, ih (n - 256) (by omega), hi]
          have := C43_split 256 (n - 256) seed (by decide)
          rw [show 256 + (n - 256) = n by omega] at this
          rw [this]

/-- C43. Whatever other coroutines do to the seed meanwhile, exactly `n` bytes are produced. -/
theorem C43_rand_length (interfere : Nat → BitVec 64 → BitVec 64) (k n : Nat) (seed : BitVec 64) :
    (randLoop interfere k n seed).1.length = n := by
  induction n using Nat.strongRecOn generalizing seed k with
  | ind n ih =>
    rw [randLoop]
    by_cases h0 : n = 0
    · subst h0; simp
    · rw [if_neg h0]
      by_cases h : n < 256
      · simp [h, C43_stream]
      · simp only [h, if_false]
        by_cases h2 : n - 256 = 0
        · simp only [h2, if_true, C43_stream]; simp; omega
        · simp only [h2, if_false]
          rw [List.length_append, ih (n-256) (by omega), C43_stream]; simp; omega

/-- C43. `neco_rand_setseed` returns the seed in force; putting it back replays the same bytes. -/
theorem C43_setseed_replay (cur new : BitVec 64) (n : Nat) :
    let (old, during) := setseed cur new
    let (_, restored) := setseed during old
    during = new ∧ pcgBuf n restored = pcgBuf n cur := by
  simp [setseed]

/-- C43. Distinct seeds never merge: the state update is injective. -/
theorem C43_step_injective (a b : BitVec 64) (h : rstep a = rstep b) : a = b := by
  have key : ∀ x y : BitVec 64, rincr x = rincr y → x = y := by
    intro x y hxy
    have hxy : x * 6364136223846793005#64 = y * 6364136223846793005#64 := by
      unfold rincr at hxy
      have := congrArg (· - 1#64) hxy
      simpa using this
    have hinv : (6364136223846793005#64 : BitVec 64) * 13877824140714322085#64 = 1#64 := by decide
    calc x = x * (6364136223846793005#64 * 13877824140714322085#64) := by rw [hinv, BitVec.mul_one]
      _ = y * (6364136223846793005#64 * 13877824140714322085#64) := by
        rw [← BitVec.mul_assoc, hxy, BitVec.mul_assoc]
      _ = y := by rw [hinv, BitVec.mul_one]
  exact key _ _ (key _ _ h)

/-- C43. The output function is the documented PCG "xorshift high, random rotation": bits 27..58 of
`s ^ (s >> 18)` rotated right by the top five bits of `s`. -/
theorem C43_output_is_pcg (s : BitVec 64) :
    rgen s = BitVec.rotateRight (((s ^^^ (s >>> 18)) >>> 27).truncate 32) (s >>> 59).toNat := by
  unfold rgen
  have hlt : (s >>> 59).toNat < 32 := by
    rw [BitVec.toNat_ushiftRight, Nat.shiftRight_eq_div_pow]
    have := s.isLt; omega
  rw [BitVec.xor_comm]
  generalize ((s ^^^ (s >>> 18)) >>> 27).truncate 32 = x
  have htr : ((s >>> 59).truncate 32 : BitVec 32) = BitVec.ofNat 32 (s >>> 59).toNat := by
    apply BitVec.eq_of_toNat_eq; simp
  rw [htr]
  dsimp only
  generalize (s >>> 59).toNat = r at hlt
  have hn : (-(BitVec.ofNat 32 r) &&& 31#32).toNat = (32 - r) % 32 := by
    have : ∀ r : Fin 32, (-(BitVec.ofNat 32 r.val) &&& 31#32).toNat = (32 - r.val) % 32 := by decide
    exact this ⟨r, hlt⟩
  have hr : (BitVec.ofNat 32 r).toNat = r := by simp; omega
  rw [BitVec.shiftLeft_eq', BitVec.ushiftRight_eq', hn, hr]
  rw [BitVec.rotateRight_def, Nat.mod_eq_of_lt hlt]
  by_cases h0 : r = 0
  · subst h0; simp
  · rw [Nat.mod_eq_of_lt (by omega)]

theorem rincr_lcg (s : BitVec 64) : (rincr s).toNat = lcg s.toNat := by
  unfold rincr lcg
  rw [BitVec.toNat_add, BitVec.toNat_mul]
  show (s.toNat * 6364136223846793005 % 2 ^ 64 + 1) % 2 ^ 64 = _
  rw [Nat.mod_add_mod]

theorem repeat_two (f : α → α) (n : Nat) (x : α) : Nat.repeat f (2 * (n + 1)) x = f (f (Nat.repeat f (2 * n) x)) := by
  rw [Nat.mul_add]; rfl

theorem repeat_lcg (s : BitVec 64) : ∀ n, (Nat.repeat rstep n s).toNat = Nat.repeat lcg (2 * n) s.toNat := by
  intro n
  induction n with
  | zero => simp [Nat.repeat]
  | succ n ih =>
    have e' : ∀ (f : BitVec 64 → BitVec 64), Nat.repeat f (n + 1) s = f (Nat.repeat f n s) := fun _ => rfl
    rw [repeat_two, e', rstep, rincr_lcg, rincr_lcg, ih]

theorem rgen_pcg (s : BitVec 64) : (rgen s).toNat = pcgOut s.toNat := by
  rw [C43_output_is_pcg, pcgOut]
  congr 1
  have h : ((s ^^^ (s >>> 18)) >>> 27).truncate 32 = BitVec.ofNat 32 ((s.toNat ^^^ (s.toNat / 2 ^ 18)) / 2 ^ 27) := by
    apply BitVec.eq_of_toNat_eq
    simp [Nat.shiftRight_eq_div_pow]
  rw [h, BitVec.toNat_ushiftRight, Nat.shiftRight_eq_div_pow]

theorem streamByte_pcg (seed : BitVec 64) (i : Nat) : (streamByte seed i).toNat = pcgByte seed.toNat i := by
  unfold streamByte pcgByte
  rw [BitVec.extractLsb'_toNat, rgen_pcg, repeat_lcg, Nat.shiftRight_eq_div_pow, Nat.pow_mul]

/-- **C43** The bytes are those of the PCG generator, two steps for each word, and the seed left
behind is its state. -/
theorem C43_pcg (n : Nat) (seed : BitVec 64) :
    (pcgBuf n seed).1.map BitVec.toNat = (List.range n).map (pcgByte seed.toNat) ∧
    (pcgBuf n seed).2.toNat = Nat.repeat lcg (2 * ((n + 3) / 4)) seed.toNat := by
  rw [C43_stream]
  constructor
  · dsimp only
    rw [List.map_map]
    refine List.map_congr_left fun i _ => ?_
    rw [Function.comp_apply]
    exact streamByte_pcg seed i
  · dsimp only
    exact repeat_lcg _ _

example : (pcgBuf 6 42#64).1.map BitVec.toNat = (List.range 6).map (pcgByte 42) := (C43_pcg 6 42#64).1

example : (rnext 42#64).1 = rgen (rstep 42#64) := rfl

end Neco.Rand
