import Verif.Model.Text
import Verif.Props.Err
import Mathlib.Tactic.Basic
import Mathlib.Tactic.IntervalCases

/-! # C45: the texts of the error codes -/

namespace Neco.Text
open Neco.Err

/-! ## Specification -/

/-- the codes of neco.h with a text of the library itself, as the text -/
def own : List (Int × String) := [(0, "Success"), (-6, "No such coroutine"), (-7, "Not watching on a signal"), (-8, "Channel closed"), (-9, "Channel empty"),
  (-13, "Negative waitgroup counter"), (-15, "Failed to unread byte"), (-16, "Failed to write all bytes"), (-17, "Coroutine is not a generator"), (-18, "Coroutine is not suspended")]

/-- the codes of neco.h that stand for an error of the system, with its Linux number -/
def ofSys : List (Int × Int) := [(-2, 22), (-3, 1), (-4, 12), (-10, 110), (-11, 125), (-12, 16)]

/-- The system has different texts for different errors, and they are not among those of the library. -/
structure Plain (sys : Int → String) : Prop where
  inj : ∀ p ∈ ofSys, ∀ q ∈ ofSys, sys p.2 = sys q.2 → p = q
  off : ∀ p ∈ ofSys, ∀ q ∈ own, sys p.2 ≠ q.2

/-! ## Theorems -/

/-- C45. The text of a code is the one of the library, or the text the system has for the error the code stands for. -/
theorem C45_text (sys gai : Int → String) (errno gaiErr : Int) :
    (∀ p ∈ own, strerror sys gai errno gaiErr p.1 = p.2) ∧ (∀ p ∈ ofSys, strerror sys gai errno gaiErr p.1 = sys p.2) ∧
    strerror sys gai errno gaiErr (-1) = sys errno ∧ (gaiErr ≠ -11 → strerror sys gai errno gaiErr (-14) = gai gaiErr) ∧ strerror sys gai errno (-11) (-14) = sys errno := by
  refine ⟨?_, ?_, rfl, ?_, rfl⟩
  · intro p hp
    simp only [own, List.mem_cons, List.not_mem_nil, or_false] at hp
    rcases hp with rfl | rfl | rfl | rfl | rfl | rfl | rfl | rfl | rfl | rfl <;> rfl
  · intro p hp
    simp only [ofSys, List.mem_cons, List.not_mem_nil, or_false] at hp
    rcases hp with rfl | rfl | rfl | rfl | rfl | rfl <;> rfl
  · intro h
    simp [strerror, OK, ERROR, INVAL, PERM, NOMEM, NOTFOUND, NOSIGWATCH, CLOSED, EMPTY, TIMEDOUT, CANCELED, BUSY, NEGWAITGRP, GAIERROR, EAI_SYSTEM, h]

/-- C45. Two codes of neco.h have the same text only if they are equal; left out are `NECO_ERROR` and `NECO_GAIERROR`, whose
text is that of another error, and `NECO_EOF`, which has none. -/
theorem C45_text_injective {sys gai : Int → String} (hs : Plain sys) {errno gaiErr a b : Int} (ha : a ∈ own.map Prod.fst ∨ a ∈ ofSys.map Prod.fst)
    (hb : b ∈ own.map Prod.fst ∨ b ∈ ofSys.map Prod.fst) (h : strerror sys gai errno gaiErr a = strerror sys gai errno gaiErr b) : a = b := by
  obtain ⟨t1, t2, _⟩ := C45_text sys gai errno gaiErr
  simp only [List.mem_map] at ha hb
  rcases ha with ⟨p, hp, rfl⟩ | ⟨p, hp, rfl⟩ <;> rcases hb with ⟨q, hq, rfl⟩ | ⟨q, hq, rfl⟩
  · rw [t1 p hp, t1 q hq] at h
    have uniq : ∀ p ∈ own, ∀ q ∈ own, p.2 = q.2 → p.1 = q.1 := by decide
    exact uniq p hp q hq h
  · rw [t1 p hp, t2 q hq] at h
    exact absurd h.symm (hs.off q hq p hp)
  · rw [t2 p hp, t1 q hq] at h
    exact absurd h (hs.off p hp q hq)
  · rw [t2 p hp, t2 q hq] at h
    rw [hs.inj p hp q hq h]

/-- C45. The text of any other code stays inside of its buffer of 32 bytes, with the zero byte at the end. -/
theorem C45_text_fits (sys gai : Int → String) (errno gaiErr code : Int) (h : code ∉ documented.map Prod.fst ∨ code = -5) :
    strerror sys gai errno gaiErr code = undefText code ∧ (undefText code).length + 1 ≤ 31 ∧ ("Undefined error: ".toList <+: (undefText code).toList) := by
  refine ⟨?_, ?_, ?_⟩
  · rcases h with h | rfl
    · simp [documented] at h
      unfold strerror
      simp [h, OK, ERROR, INVAL, PERM, NOMEM, NOTFOUND, NOSIGWATCH, CLOSED, EMPTY, TIMEDOUT, CANCELED, BUSY,
        NEGWAITGRP, GAIERROR, UNREADFAIL, PARTIALWRITE, NOTGENERATOR, NOTSUSPENDED]
    · rfl
  · unfold undefText
    rw [String.length_ofList, List.length_take]
    have : UDMSG - 1 - 1 = 30 := rfl
    omega
  · unfold undefText
    have h1 : ("Undefined error: ".toList).take (UDMSG - 1 - 1) = "Undefined error: ".toList := by decide
    have h2 : (String.ofList (("Undefined error: " ++ toString code).toList.take (UDMSG - 1 - 1))).toList =
        "Undefined error: ".toList ++ (toString code).toList.take (UDMSG - 1 - 1 - "Undefined error: ".toList.length) := by
      rw [String.toList_ofList, String.toList_append, List.take_append, h1]
    rw [h2]
    exact List.prefix_append _ _

/-- C45, defects: `NECO_EOF` has no text, it is called undefined; and two different codes that are not documented can have the
same text, because the buffer is too short for the number. -/
theorem C45_text_not_general (sys gai : Int → String) (errno gaiErr : Int) :
    strerror sys gai errno gaiErr (-5) = "Undefined error: -5" ∧
    strerror sys gai errno gaiErr 10000000000001 = strerror sys gai errno gaiErr 10000000000002 := by
  constructor
  · show undefText (-5) = _
    decide
  · show undefText 10000000000001 = undefText 10000000000002
    have h1 : toString (10000000000001 : Int) = "10000000000001" := rfl
    have h2 : toString (10000000000002 : Int) = "10000000000002" := rfl
    unfold undefText
    rw [h1, h2]
    decide +kernel

/-- texts as the hypothesis of `C45_text_injective` wants them -/
example : Plain (fun e => "error " ++ toString e) := ⟨by decide, by decide⟩

end Neco.Text
