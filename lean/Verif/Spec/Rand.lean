/-! # The PCG generator (XSH-RR 64/32, increment 1), on natural numbers -/
namespace Neco.Rand

/-- the linear congruential step -/
def lcg (x : Nat) : Nat := (x * 6364136223846793005 + 1) % 2 ^ 64

/-- the output: bits 27..58 of `x ^ (x >> 18)`, rotated right by the top five bits of `x` -/
def pcgOut (x : Nat) : Nat := (BitVec.rotateRight (BitVec.ofNat 32 ((x ^^^ (x / 2 ^ 18)) / 2 ^ 27)) (x / 2 ^ 59)).toNat

/-- Byte `i` of the stream of a seed: the state moves two steps for each word of four bytes, before
the word is put out, lowest byte first. -/
def pcgByte (seed i : Nat) : Nat := pcgOut (Nat.repeat lcg (2 * (i / 4 + 1)) seed) / 256 ^ (i % 4) % 256

end Neco.Rand
