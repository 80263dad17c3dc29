import Verif.Model.Err
/-! # C45: error codes -/
namespace Neco.Err

/-- the documented error codes with the name each should print as (neco.h 360-378) -/
def documented : List (Int × String) :=
  [(0,"NECO_OK"),(-1,"NECO_ERROR"),(-2,"NECO_INVAL"),(-3,"NECO_PERM"),(-4,"NECO_NOMEM"),(-5,"NECO_EOF"),
   (-6,"NECO_NOTFOUND"),(-7,"NECO_NOSIGWATCH"),(-8,"NECO_CLOSED"),(-9,"NECO_EMPTY"),(-10,"NECO_TIMEDOUT"),
   (-11,"NECO_CANCELED"),(-12,"NECO_BUSY"),(-13,"NECO_NEGWAITGRP"),(-14,"NECO_GAIERROR"),
   (-15,"NECO_UNREADFAIL"),(-16,"NECO_PARTIALWRITE"),(-17,"NECO_NOTGENERATOR"),(-18,"NECO_NOTSUSPENDED")]

/-- C45. Converting a convertible error to errno and back is the identity, whatever errno was. -/
theorem C45_roundtrip (err errno : Int)
    (h : err = -2 ∨ err = -3 ∨ err = -4 ∨ err = -11 ∨ err = -10) :
    fromSys (toSys err errno) = err := by
  rcases h with h|h|h|h|h <;> subst h <;> rfl

/-- C45. Conversion from errno followed by conversion to errno gives the same errno, unless the
errno has no neco code, in which case the result is NECO_ERROR and errno is left as it was. -/
theorem C45_roundtrip_sys (errno : Int) :
    (fromSys errno = -1 ∧ toSys (fromSys errno) errno = errno) ∨
    (fromSys errno ≠ -1 ∧ ∀ e, toSys (fromSys errno) e = errno) := by
  unfold fromSys
  (repeat' split) <;> simp_all [toSys, OK, INVAL, PERM, NOMEM, CANCELED, TIMEDOUT, ERROR,
    sysEINVAL, sysEPERM, sysENOMEM, sysECANCELED, sysETIMEDOUT]

/-- C45. The result of `neco_errconv_from_sys` is always one of six documented codes. -/
theorem C45_fromSys_range (errno : Int) :
    fromSys errno ∈ ([-2, -3, -4, -11, -10, -1] : List Int) := by
  unfold fromSys
  (repeat' split) <;> simp [INVAL, PERM, NOMEM, CANCELED, TIMEDOUT, ERROR]

/-- C45. After an API call returning `ret`, `neco_lasterr` is 0 on success, the errno translated
when `ret` is -1, and `ret` itself for every other error. -/
theorem C45_lasterr (ret errno : Int) (p a : Bool) :
    (asyncErrorGuard ret errno p a).lasterr =
      (if ret ≥ 0 then 0 else if ret = -1 then fromSys errno else ret) := by
  have key : (asyncErrorGuard ret errno p a).lasterr = (errorGuard ret errno p).lasterr := by
    unfold asyncErrorGuard
    dsimp only
    split
    · rfl
    · split <;> rfl
  rw [key]; unfold errorGuard
  by_cases h : ret < 0
  · simp [h, show ¬ ret ≥ 0 by omega]
  · simp [h, show ret ≥ 0 by omega]

/-- C45. A successful call never panics and never terminates the caller; an API call terminates the
caller exactly when it reports a cancelation and the cancel type is asynchronous; it panics exactly
when the user asked for it and the error is one of invalid, not permitted, out of memory. -/
theorem C45_guard_effects (ret errno : Int) (p a : Bool) :
    let le := if ret ≥ 0 then 0 else if ret = -1 then fromSys errno else ret
    ((asyncErrorGuard ret errno p a).exited = true ↔ (le = -11 ∧ a = true)) ∧
    ((asyncErrorGuard ret errno p a).panicked = true ↔ (p = true ∧ (le = -2 ∨ le = -3 ∨ le = -4))) := by
  intro le
  have hle : (errorGuard ret errno p).lasterr = le := by
    unfold errorGuard
    by_cases h : ret < 0
    · simp [le, h, show ¬ ret ≥ 0 by omega]
    · simp [le, h, show ret ≥ 0 by omega]
  have hp : (errorGuard ret errno p).panicked = true ↔ (p = true ∧ (le = -2 ∨ le = -3 ∨ le = -4)) := by
    rw [← hle]; unfold errorGuard
    by_cases h : ret < 0
    · simp only [h, if_true, Bool.and_eq_true, Bool.or_eq_true, decide_eq_true_iff, or_assoc]
      simp only [INVAL, PERM, NOMEM]
    · simp [h]
  have he : (errorGuard ret errno p).exited = false := by
    unfold errorGuard; split <;> rfl
  clear_value le
  unfold asyncErrorGuard
  simp only [hle]
  by_cases h1 : (errorGuard ret errno p).panicked = true
  · rw [if_pos h1, he]
    refine ⟨?_, hp⟩
    have := hp.1 h1
    constructor
    · simp
    · omega
  · rw [if_neg h1]
    split
    · rename_i h2; exact ⟨by simpa [CANCELED] using h2, hp⟩
    · rename_i h2; refine ⟨by simpa [he, CANCELED] using h2, hp⟩

/-- Full statement of the naming part of C45: every documented code prints as its own name. -/
def NamesFaithful : Prop := ∀ p ∈ documented, shortStr p.1 = p.2

/-- C45, defect: the naming claim is false, `NECO_EOF` has no name. -/
theorem C45_names_false : ¬ NamesFaithful := by
  intro h
  exact absurd (h (-5, "NECO_EOF") (by decide)) (by decide)

/-- C45, naming, for every code but `NECO_EOF`. What is missing: `NECO_EOF`, which prints as
"UNKNOWN" (see `C45_names_false`). -/
theorem C45_names_partial : ∀ p ∈ documented, p.1 ≠ -5 → shortStr p.1 = p.2 := by
  decide

/-- C45. Two codes print as the same name only if they are equal or both print as "UNKNOWN". -/
theorem C45_names_injective (a b : Int) (h : shortStr a = shortStr b) (hu : shortStr a ≠ "UNKNOWN") :
    a = b := by
  have inv0 : ∀ c : Int, shortStr c = "UNKNOWN" ∨ (c, shortStr c) ∈ documented := by
    intro c
    by_cases hc : c ∈ documented.map Prod.fst
    · have : ∀ c ∈ documented.map Prod.fst, shortStr c = "UNKNOWN" ∨ (c, shortStr c) ∈ documented := by decide
      exact this c hc
    · left
      simp [documented] at hc
      unfold shortStr
      simp [hc, OK, ERROR, INVAL, PERM, NOMEM, NOTFOUND, NOSIGWATCH, CLOSED, EMPTY, TIMEDOUT, CANCELED, BUSY,
        NEGWAITGRP, GAIERROR, UNREADFAIL, PARTIALWRITE, NOTGENERATOR, NOTSUSPENDED]
  have inv : ∀ c : Int, shortStr c ≠ "UNKNOWN" → (c, shortStr c) ∈ documented :=
    fun c hc => (inv0 c).resolve_left hc
  have ha := inv a hu
  have hb := inv b (h ▸ hu)
  rw [← h] at hb
  have uniq : ∀ p ∈ documented, ∀ q ∈ documented, p.2 = q.2 → p.1 = q.1 := by decide
  exact uniq _ ha _ hb rfl

example : shortStr (-11) = "NECO_CANCELED" ∧ shortStr (-11) ≠ "UNKNOWN" := by decide
example : (asyncErrorGuard (-1) 125 false true).exited = true := by decide

end Neco.Err
