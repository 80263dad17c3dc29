/-! # Pseudorandom numbers (neco.c 8311-8430) -/
namespace Neco.Rand

/-- `rincr`, neco.c 8313-8315 (64-bit wrapping). -/
def rincr (seed : BitVec 64) : BitVec 64 := seed * 6364136223846793005#64 + 1#64

/-- `rgen`, neco.c 8317-8322. -/
def rgen (seed : BitVec 64) : BitVec 32 :=
  let xorshifted : BitVec 32 := (((seed >>> 18) ^^^ seed) >>> 27).truncate 32
  let rot : BitVec 32 := (seed >>> 59).truncate 32
  (xorshifted >>> rot) ||| (xorshifted <<< ((-rot) &&& 31#32))

/-- new seed after `rnext`, neco.c 8324-8325. -/
def rstep (seed : BitVec 64) : BitVec 64 := rincr (rincr seed)

/-- `rnext`, neco.c 8324-8328: value and new seed. -/
def rnext (seed : BitVec 64) : BitVec 32 × BitVec 64 :=
  let s := rstep seed
  (rgen s, s)

/-- the bytes of a `uint32_t` in memory order (little endian machine) -/
def bytes4 (v : BitVec 32) : List (BitVec 8) :=
  [v.extractLsb' 0 8, v.extractLsb' 8 8, v.extractLsb' 16 8, v.extractLsb' 24 8]

/-- `pcgrandom_buf`, neco.c 8330-8346: bytes written and new seed. -/
def pcgBuf (nbytes : Nat) (seed : BitVec 64) : List (BitVec 8) × BitVec 64 :=
  if 4 ≤ nbytes then
    let (v, s) := rnext seed
    let (rest, s') := pcgBuf (nbytes - 4) s
    (bytes4 v ++ rest, s')
  else if nbytes > 0 then
    let (v, s) := rnext seed
    ((bytes4 v).take nbytes, s)
  else ([], seed)

/-- The generation loop of `rand_dl` for `NECO_PRNG`, neco.c 8405-8425: chunks of at most 256 bytes with
a yield between chunks.  `interfere k s` is what the other coroutines do to the shared seed during the
`k`-th yield.  Deadline and cancel checks (`checkdl`) are in the Runtime model; here they succeed. -/
def randLoop (interfere : Nat → BitVec 64 → BitVec 64) (k : Nat) (nbytes : Nat) (seed : BitVec 64) :
    List (BitVec 8) × BitVec 64 :=
  if nbytes = 0 then ([], seed) else
  let part := if nbytes < 256 then nbytes else 256
  let (bs, s) := pcgBuf part seed
  if nbytes - part = 0 then (bs, s)
  else
    let (rest, s') := randLoop interfere (k + 1) (nbytes - part) (interfere k s)
    (bs ++ rest, s')
termination_by nbytes
decreasing_by split <;> omega

/-- `rand_setseed`, neco.c 8348-8357, inside a runtime: (returned old seed, new runtime seed). -/
def setseed (rtSeed seed : BitVec 64) : BitVec 64 × BitVec 64 := (rtSeed, seed)

end Neco.Rand
