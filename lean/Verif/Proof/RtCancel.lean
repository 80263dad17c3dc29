import Verif.Proof.RtWg
import Verif.Spec.Cancel
/-!
# How often a cancelation is reported
-/
namespace Neco.Rt
open Neco.Err

/-- taking the mutex back -/
def relPc : Pc → Bool
  | .relock => true
  | .blk .relock => true
  | _ => false
theorem relPc_of {p : Pc} (h1 : p ≠ .relock) (h2 : p ≠ .blk .relock) : relPc p = false := by
  cases p <;> try rfl
  case relock => exact absurd rfl h1
  case blk b => cases b <;> first | rfl | exact absurd rfl h2
/-- the call is going to return `NECO_CANCELED` -/
def owes (k : Co) : Bool := (retPc k.pc == some CANCELED) || (relPc k.pc && k.sav == CANCELED)
/-- cancelations not yet reported -/
def bill (k : Co) : Nat := k.canceled.toNat + (owes k).toNat

theorem bill_eq {k : Co} (h : owes k = false) : bill k = k.canceled.toNat := by unfold bill; rw [h]; rfl
theorem bill_le1 {k : Co} (h : k.canceled = false) : bill k ≤ 1 := by unfold bill; rw [h]; cases owes k <;> simp
theorem le_bill {k : Co} : k.canceled.toNat ≤ bill k := Nat.le_add_right ..

theorem ofNat_ne {n : Nat} : (n : Int) ≠ CANCELED := by
  intro e
  have h : (0 : Int) ≤ CANCELED := by rw [← e]; exact Int.natCast_nonneg _
  exact absurd h (by decide)

/-- the flag was kept or used up -/
def Spend (i : Nat) (s t : S) : Prop := ((t.co i).canceled = (s.co i).canceled ∧ owes (t.co i) = false) ∨ ((s.co i).canceled = true ∧ (t.co i).canceled = false)
theorem Spend.le {i : Nat} {s t : S} (h : Spend i s t) : bill (t.co i) ≤ bill (s.co i) := by
  rcases h with ⟨h1, h2⟩ | ⟨h1, h2⟩
  · rw [bill_eq h2, h1]; exact le_bill
  · refine Nat.le_trans (bill_le1 h2) ?_
    have := @le_bill (s.co i); rw [h1] at this; exact this
theorem Spend.congr {i : Nat} {s s' t : S} (h : Spend i s t) (e : (s.co i).canceled = (s'.co i).canceled) : Spend i s' t := by unfold Spend at h ⊢; rwa [e] at h

theorem spend_retv {i : Nat} {s t : S} {v : Int} (h : (t.co i).canceled = (s.co i).canceled) (hv : v ≠ CANCELED) : Spend i s (retv t i v) :=
  .inl ⟨by simp [retv_co, h], by simp [relPc, owes, retv_co, retPc, hv]⟩
theorem spend_setPc {i : Nat} {s t : S} {p : Pc} (h : (t.co i).canceled = (s.co i).canceled) (hv : retPc p ≠ some CANCELED) (h1 : p ≠ .relock) (h2 : p ≠ .blk .relock) : Spend i s (setPc t i p) :=
  .inl ⟨by simp [setPc_co, h], by simp [owes, setPc_co, hv, relPc_of h1 h2]⟩
theorem spend_coyield {i n : Nat} {s t : S} {a : Aft} (h : (t.co i).canceled = (s.co i).canceled) (hv : a ≠ .ret CANCELED) : Spend i s (coyield t i n a) := by
  refine .inl ⟨by simp [coyield_co, h], ?_⟩
  simp only [relPc, owes, coyield_co, if_true]
  cases a <;> simp_all [retPc, relPc]
theorem spend_yfsr {i n : Nat} {s t : S} {a : Aft} (h : (t.co i).canceled = (s.co i).canceled) (hv : a ≠ .ret CANCELED) : Spend i s (yfsr t i n a) := spend_coyield h hv
theorem spend_resume {i r : Nat} {s t : S} (h : Spend i s t) : Spend i s (scoResume t r) := h
theorem spend_pause {i : Nat} {s t : S} {dl : Int} {b : Blk} (h : (t.co i).canceled = (s.co i).canceled) (hb : b ≠ .relock) : Spend i s (copause t i dl b) := by
  refine .inl ⟨?_, ?_⟩
  · rw [copause_co, if_pos rfl]; split <;> exact h
  · simp only [owes, copause_co, if_true]; have := relPc_of (p := .blk b) (by simp) (by simpa using hb); split <;> simp [retPc, this]
theorem spend_uncan {i : Nat} {s t : S} (h : (s.co i).canceled = true) (h2 : (t.co i).canceled = false) : Spend i s t := .inr ⟨h, h2⟩
/-- `checkdl` and return -/
theorem spend_code {i : Nat} {s t : S} {dl : Int} (h : (t.co i).canceled = (s.co i).canceled) : Spend i s (retv (dlClear t i) i (dlCode t i dl)) := by
  by_cases hc : (s.co i).canceled = true
  · exact .inr ⟨hc, by simp [retv_co, dlClear_co]⟩
  · refine .inl ⟨by simp [retv_co, dlClear_co]; simpa using (Bool.eq_false_iff.mpr hc), ?_⟩
    have : dlCode t i dl ≠ CANCELED := fun e => hc (by rw [← h]; exact dlCode_canceled.mp e)
    simp [relPc, owes, retv_co, retPc, this]
theorem spend_val {i : Nat} {s u : S} {v : Int} (hv : v = CANCELED → (s.co i).canceled = true) : Spend i s (retv (dlClear u i) i v) := by
  by_cases hc : (s.co i).canceled = true
  · exact .inr ⟨hc, by simp [retv_co, dlClear_co]⟩
  · exact .inl ⟨by simp [retv_co, dlClear_co, Bool.eq_false_iff.mpr hc], by have : v ≠ CANCELED := fun e => hc (hv e)
                                                                            simp [relPc, owes, retv_co, retPc, this]⟩
theorem dlCode_ok {s : S} {i : Nat} {dl : Int} (h : dlCode s i dl = OK) : (s.co i).canceled = false := by
  cases hc : (s.co i).canceled with
  | false => rfl
  | true => unfold dlCode at h; rw [if_pos hc] at h; cases h
theorem spend_clear {i : Nat} {s t : S} {dl : Int} (h : dlCode s i dl = OK) (g : Spend i (dlClear s i) t) : Spend i s t :=
  g.congr (by rw [dlClear_co, if_pos rfl, dlCode_ok h])

section
variable {s : S} {i : Nat}

theorem chanSend_spend (c : Nat) (m : Msg) (dl : Int) (h0 : owes (s.co i) = false) : Spend i s (chanSend s i c m dl) := by
  unfold chanSend
  split
  · exact .inl ⟨rfl, h0⟩
  · split
    · exact spend_retv rfl (by decide)
    · split
      · rename_i hc; exact spend_uncan hc (by simp [retv_co, upd_co])
      · dsimp only
        have hf : ∀ ch, (((sendTry (note s (.put c i m)) c m ch).1.co i)).canceled = (s.co i).canceled := fun ch => by
          unfold sendTry; split
          · exact fl_canceled (sendLoop_fl ..)
          · rfl
        split
        · exact spend_resume (spend_retv (hf _) (by decide))
        · unfold sendRest; split
          · exact spend_retv (hf _) (by decide)
          · exact spend_pause (by simp [upd_co, hf]) (by simp)

theorem chanBcast_spend (c : Nat) (m : Msg) (h0 : owes (s.co i) = false) : Spend i s (chanBcast s i c m) := by
  unfold chanBcast
  split
  · exact .inl ⟨rfl, h0⟩
  · split
    · exact spend_retv rfl (by decide)
    · dsimp only
      refine spend_yfsr ?_ ?_
      · unfold bcastTry; split
        · exact fl_canceled (bcastLoop_fl ..)
        · rfl
      · intro e; exact ofNat_ne (Aft.ret.inj e)

theorem resumeOpt_spend {t u : S} (o : Option Nat) (h : Spend i t u) : Spend i t (resumeOpt u o) := by cases o <;> exact h

theorem chanRecv_spend (c : Nat) (try' : Bool) (dl : Int) (h0 : owes (s.co i) = false) : Spend i s (chanRecv s i c try' dl) := by
  unfold chanRecv
  split
  · exact .inl ⟨rfl, h0⟩
  · split
    · exact spend_retv rfl (by decide)
    · split
      · rename_i hc; exact spend_uncan hc (by simp [retv_co, upd_co])
      · split
        · rename_i e
          have := recvNow_co e
          exact resumeOpt_spend _ (spend_retv (by simp [upd_co, this]) (by decide))
        · split
          · exact spend_retv rfl (by decide)
          · exact spend_pause (by simp [upd_co]) (by simp)

theorem chanSelect_spend (cs : List Nat) (dl : Int) (try' : Bool) (h0 : owes (s.co i) = false) : Spend i s (chanSelect s i cs dl try') := by
  unfold chanSelect
  split
  · exact .inl ⟨rfl, h0⟩
  · split
    · rename_i hc; exact spend_uncan hc (by simp [retv_co, upd_co])
    · split
      · split
        · exact .inl ⟨rfl, h0⟩
        · split
          · exact spend_setPc rfl (by simp [retPc]) (by simp) (by simp)
          · split
            · rename_i e
              have := recvNow_co e
              exact resumeOpt_spend _ (spend_setPc (by simp [this]) (by simp [retPc]) (by simp) (by simp))
            · exact .inl ⟨rfl, h0⟩
      · split
        · exact spend_retv rfl (by decide)
        · exact spend_pause (by simp [upd_co]) (by simp)

theorem chanClose1_spend (c : Nat) (ch : Chan) (a : Aft) (ha : a ≠ .ret CANCELED) : Spend i s (chanClose1 s i c ch a) := by
  unfold chanClose1; dsimp only; split
  · refine spend_setPc rfl ?_ (by simp) (by simp)
    cases a <;> simp_all [retPc, relPc]
  · exact spend_yfsr (by show ((closeLoop _ _ _).co i).canceled = _; exact fl_canceled (closeLoop_fl ..)) ha

theorem finishLock_spend {t : S} (m : Nat) (rd : Bool) (dl : Int) {b : Blk} (hb : b ≠ .relock) (h : (t.co i).canceled = (s.co i).canceled) : Spend i s (finishLock t i m rd dl b) := by
  unfold finishLock; exact spend_pause (by simp [upd_co, h]) hb

theorem muLock_spend (m : Nat) (dl : Int) : Spend i s (muLock s i m dl) := by
  unfold muLock; split
  · exact spend_code rfl
  · rename_i h
    have h := Classical.not_not.mp h
    dsimp only; split
    · refine spend_clear h ?_; exact finishLock_spend _ _ _ (by simp) rfl
    · refine spend_clear h ?_; exact spend_retv rfl (by decide)
theorem muRdlock_spend (m : Nat) (dl : Int) : Spend i s (muRdlock s i m dl) := by
  unfold muRdlock; split
  · exact spend_code rfl
  · rename_i h
    have h := Classical.not_not.mp h
    dsimp only; split
    · refine spend_clear h ?_; exact finishLock_spend _ _ _ (by simp) rfl
    · refine spend_clear h ?_; exact spend_retv rfl (by decide)
theorem muUnlock_spend (m : Nat) : Spend i s (muUnlock s i m) := by
  unfold muUnlock; split
  · exact spend_yfsr (by simp) (by simp [OK, CANCELED])
  · exact spend_coyield (by simp) (by simp [OK, CANCELED])
theorem wgDone_spend (w : Nat) : Spend i s (wgDone s i w) := by
  unfold wgDone; dsimp only; (repeat' split)
  · exact spend_retv rfl (by decide)
  · exact spend_retv rfl (by decide)
  · exact spend_resume (spend_retv (by simp) (by decide))
  · exact spend_yfsr (by simp) (by simp [OK, CANCELED])
  · exact spend_retv rfl (by decide)
theorem wgWait_spend (w : Nat) (dl : Int) : Spend i s (wgWait s i w dl) := by
  unfold wgWait; split
  · exact spend_code rfl
  · rename_i h
    have h := Classical.not_not.mp h
    dsimp only; split
    · refine spend_clear h ?_; exact spend_coyield rfl (by simp [OK, CANCELED])
    · refine spend_clear h ?_; exact spend_pause rfl (by simp)
theorem cvEnq_spend {t : S} (v : Nat) (dl : Int) (h : (t.co i).canceled = (s.co i).canceled) : Spend i s (cvEnq t i v dl) := by
  unfold cvEnq; exact spend_pause h (by simp)
theorem cvWait_spend (v m : Nat) (dl : Int) : Spend i s (cvWait s i v m dl) := by
  unfold cvWait; (repeat' split)
  · rename_i hc; exact spend_uncan hc (by simp [retv_co, upd_co])
  · exact spend_yfsr (by simp) (by simp)
  · exact cvEnq_spend _ _ (by simp)
theorem doJoin_spend (id : Nat) (dl : Int) : Spend i s (doJoin s i id dl) := by
  unfold doJoin; split
  · exact spend_retv rfl (by decide)
  split
  · exact spend_code rfl
  · rename_i h
    have h := Classical.not_not.mp h
    dsimp only; split
    · refine spend_clear h ?_; exact spend_retv rfl (by decide)
    · refine spend_clear h ?_; exact spend_pause rfl (by simp)


theorem doStart_spend {t : S} (g : Option Nat) (hl : i ≤ t.sco.nextId) (h : (t.co i).canceled = (s.co i).canceled) : Spend i s (doStart t i g) := by
  have : ((doStart t i g).co i) = { t.co i with pc := .ret OK, lastid := t.sco.nextId + 1 } := by
    simp only [doStart, upd_co]; rw [if_neg (by omega)]; simp
  refine .inl ⟨by rw [this]; exact h, by rw [this]; simp [relPc, owes, retPc, OK, CANCELED]⟩

/-- making a call uses the flag up at most once -/
theorem doCall_spend (c : Call) (hl : i ≤ s.sco.nextId) (h0 : owes (s.co i) = false) : Spend i s (doCall s i c) := by
  cases c <;> simp only [doCall]
  case none => exact .inl ⟨rfl, h0⟩
  case start => exact doStart_spend _ hl rfl
  case genStart => exact doStart_spend _ hl rfl
  case yield => exact spend_coyield rfl (by simp [OK, CANCELED])
  case sleep dl => unfold doSleep; split
                   · exact spend_retv rfl (by decide)
                   · exact spend_pause rfl (by simp)
  case join => exact doJoin_spend _ _
  case suspend => exact spend_pause (by simp [upd_co]) (by simp)
  case resume id =>
    unfold doResume; (repeat' split)
    · exact spend_retv rfl (by decide)
    · exact spend_retv rfl (by decide)
    · exact spend_resume (spend_retv rfl (by decide))
  case exit => exact spend_setPc rfl (by simp [retPc]) (by simp) (by simp)
  case getid => exact spend_retv rfl ofNat_ne
  case lastid => exact spend_retv rfl ofNat_ne
  case starterid => exact spend_retv rfl ofNat_ne
  case stats => exact spend_retv rfl (by decide)
  case chMake => exact spend_retv rfl ofNat_ne
  case chRetain c =>
    split
    · exact .inl ⟨rfl, h0⟩
    · exact spend_retv rfl (by decide)
  case chRelease c => exact spend_retv (by simp) (by decide)
  case send => exact chanSend_spend _ _ _ h0
  case bcast => exact chanBcast_spend _ _ h0
  case recv => exact chanRecv_spend _ _ _ h0
  case tryrecv => exact chanRecv_spend _ _ _ h0
  case close c =>
    unfold chanClose; (repeat' split)
    · exact .inl ⟨rfl, h0⟩
    · exact spend_retv rfl (by decide)
    · exact chanClose1_spend _ _ _ (by simp [OK, CANCELED])
  case select => exact chanSelect_spend _ _ _ h0
  case tryselect => exact chanSelect_spend _ _ _ h0
  case chCase c =>
    unfold chanCase; (repeat' split)
    · exact .inl ⟨rfl, h0⟩
    · exact spend_retv (by simp [upd_co]) (by decide)
    · exact spend_retv rfl (by decide)
  case genYield m dl =>
    unfold doGenYield; split
    · exact spend_retv rfl (by decide)
    · exact chanSend_spend _ _ _ h0
  case lock => exact muLock_spend _ _
  case rdlock => exact muRdlock_spend _ _
  case trylock => unfold muTrylock; split <;> exact spend_retv rfl (by decide)
  case tryrdlock => unfold muTryrdlock; split <;> exact spend_retv rfl (by decide)
  case unlock => exact muUnlock_spend _
  case wgAdd w d =>
    unfold wgAdd; dsimp only; (repeat' split)
    · exact .inl ⟨rfl, h0⟩
    · exact spend_retv rfl (by decide)
    · exact spend_retv rfl (by decide)
  case wgDone => exact wgDone_spend _
  case wgWait => exact wgWait_spend _ _
  case cvSignal v =>
    unfold cvSignal; split
    · exact spend_retv rfl (by decide)
    · exact spend_resume (spend_retv rfl (by decide))
  case cvBcast v => exact spend_yfsr (by simp) (by simp [OK, CANCELED])
  case cvWait => exact cvWait_spend _ _ _
  case cancel => exact spend_setPc rfl (by simp [retPc]) (by simp) (by simp)
  case setType => exact spend_retv (by simp [upd_co]) (by decide)
  case setState => exact spend_retv (by simp [upd_co]) (by decide)
  case cpush => exact spend_retv (by simp [upd_co]) (by decide)
  case cpop e =>
    unfold doCpop; split
    · exact .inl ⟨rfl, h0⟩
    · dsimp only; refine spend_retv ?_ (by decide); split <;> simp [upd_co]
  case sigWatch n =>
    unfold doSigWatch; (repeat' split)
    · exact spend_retv rfl (by decide)
    · exact spend_retv rfl (by decide)
    · exact spend_retv (by simp [upd_co]) (by decide)
  case sigUnwatch n =>
    unfold doSigUnwatch; (repeat' split)
    · exact spend_retv rfl (by decide)
    · exact spend_retv (by simp [upd_co]) (by decide)
    · exact spend_retv rfl (by decide)
  case sigWait dl =>
    unfold doSigWait; (repeat' split)
    · exact spend_retv rfl (by decide)
    · rename_i hc; exact spend_uncan hc (by simp [retv_co, upd_co])
    · exact spend_pause (by simp [upd_co]) (by simp)
  case wait => exact spend_pause rfl (by simp)
  case work => exact spend_setPc rfl (by simp [retPc]) (by simp) (by simp)

theorem owes_pc {k : Co} (h : retPc k.pc = none) (h1 : k.pc ≠ .relock) (h2 : k.pc ≠ .blk .relock) : owes k = false := by
  simp [owes, h, relPc_of h1 h2]

theorem unpause_canceled (s : S) (i : Nat) : ((unpause s i).co i).canceled = (s.co i).canceled := (unpause_keep s i).1
theorem unpause_sav (s : S) (i j : Nat) : ((unpause s i).co j).sav = (s.co j).sav := by
  unfold unpause; split
  · simp only [upd_co]; split <;> simp_all
  · rfl
theorem afterBlk_spend {t : S} {b : Blk} (hb : b ≠ .relock) (hr : b = .sel → -1 ≤ (t.co i).retIdx) (h : (t.co i).canceled = (s.co i).canceled) : bill ((afterBlk t i b).co i) ≤ (s.co i).canceled.toNat := by
  have key : Spend i s (afterBlk t i b) → owes (s.co i) = false ∨ True → bill ((afterBlk t i b).co i) ≤ (s.co i).canceled.toNat := by
    intro g _
    rcases g with ⟨h1, h2⟩ | ⟨h1, h2⟩
    · rw [bill_eq h2, h1]; exact Nat.le_refl _
    · rw [h1]; exact bill_le1 h2
  cases b <;> simp only [afterBlk] at key ⊢
  case sleep =>
    refine key ?_ (.inr trivial)
    by_cases hc : (s.co i).canceled = true
    · exact .inr ⟨hc, by simp [retv_co, dlClear_co]⟩
    · have hc' : (t.co i).canceled = false := by rw [h]; exact Bool.eq_false_iff.mpr hc
      refine .inl ⟨?_, ?_⟩
      · simp [retv_co, dlClear_co, Bool.eq_false_iff.mpr hc]
      · simp [relPc, owes, retv_co, retPc, hc', OK, CANCELED]
  case relock => exact absurd rfl hb
  case recv =>
    refine key ?_ (.inr trivial)
    split
    · exact spend_code h
    · rename_i h1
      have h1 := Classical.not_not.mp h1
      have h2 : (s.co i).canceled = false := by rw [← h]; exact dlCode_ok h1
      split
      · exact .inl ⟨by simp [retv_co, dlClear_co, upd_co, h2], by simp [relPc, owes, retv_co, retPc, CLOSED, CANCELED]⟩
      · exact .inl ⟨by simp [retv_co, dlClear_co, h2], by simp [relPc, owes, retv_co, retPc, OK, CANCELED]⟩
  case sel =>
    refine key (spend_val fun e => ?_) (.inr trivial)
    split at e
    · have h1 := hr rfl
      have h2 : ((selRm { t with nreceivers := t.nreceivers - 1 } i).co i).retIdx = (t.co i).retIdx := rfl
      rw [h2] at e; rw [e] at h1; exact absurd h1 (by decide)
    · rw [← h]; exact dlCode_canceled.mp e
  case cond =>
    refine key ?_ (.inr trivial)
    by_cases hc : (s.co i).canceled = true
    · exact .inr ⟨hc, by simp [setPc_co, dlClear_co, upd_co]⟩
    · refine .inl ⟨by simp [setPc_co, dlClear_co, upd_co, Bool.eq_false_iff.mpr hc], ?_⟩
      have : dlCode (rm { t with ncondwaiters := t.ncondwaiters - 1 } (.co i)) i MAX ≠ CANCELED := fun e => hc (by rw [← h]; exact dlCode_canceled.mp e)
      simp [relPc, owes, setPc_co, upd_co, retPc, this]
  case cancel => exact key (spend_setPc h (by simp [retPc]) (by simp) (by simp)) (.inr trivial)
  case sig =>
    refine key (spend_val fun e => ?_) (.inr trivial)
    split at e
    · exact absurd e ofNat_ne
    · have e := dlCode_canceled.mp e
      rw [← h]; simpa [upd_co] using e
  case lock =>
    refine key (spend_val fun e => ?_) (.inr trivial)
    have e := dlCode_canceled.mp e
    rw [← h]; simpa [upd_co] using e
  case susp =>
    refine key (spend_val fun e => ?_) (.inr trivial)
    have e := dlCode_canceled.mp e
    rw [← h]; simpa [upd_co] using e
  all_goals
    refine key (spend_val fun e => ?_) (.inr trivial)
    rw [← h]; exact dlCode_canceled.mp e

theorem exitNotify_spend (a : Bool) (h0 : owes (s.co i) = false) : Spend i s (exitNotify s i a) := by
  unfold exitNotify; dsimp only
  split
  · exact spend_setPc (by simp) (by simp [retPc]) (by simp) (by simp)
  · split
    · exact .inl ⟨by simp, by simpa using h0⟩
    · split
      · exact spend_setPc (by simp) (by simp [retPc]) (by simp) (by simp)
      · exact (chanClose1_spend _ _ _ (by simp)).congr (by simp)

theorem doAft_spend (a : Aft) (h : ∀ v, a ≠ .ret v) (h0 : owes (s.co i) = false) : Spend i s (doAft s i a) := by
  cases a <;> simp only [doAft]
  case ret v => exact absurd rfl (h v)
  case condEnq => split
                  · exact cvEnq_spend _ _ rfl
                  · exact .inl ⟨rfl, h0⟩
  case genRel => split
                 · exact spend_setPc (by simp [upd_co]) (by simp [retPc]) (by simp) (by simp)
                 · exact .inl ⟨rfl, h0⟩
  case exitTail => split
                   · exact spend_yfsr rfl (by simp)
                   · exact spend_setPc rfl (by simp [retPc]) (by simp) (by simp)
  case fin => exact .inl ⟨by simp [doFin, setPc_co], by simp [doFin, setPc_co, relPc, owes, retPc]⟩

end

/-! ## Counting -/

theorem reported_cons {i : Nat} {e : Ev} {l : List Ev} : reported i (e :: l) = reported i l + (reportsCancel i e).toNat := by
  unfold reported; rw [List.countP_cons]; cases reportsCancel i e <;> simp
theorem canceledTimes_cons {i : Nat} {e : Ev} {l : List Ev} : canceledTimes i (e :: l) = canceledTimes i l + (cancels i e).toNat := by
  unfold canceledTimes; rw [List.countP_cons]; cases cancels i e <;> simp
theorem reported_adds {i : Nat} {s t : S} {ks : List Kind} (h : Adds ks s t) (h1 : .ret ∉ ks) (h2 : .kill ∉ ks) : reported i t.log = reported i s.log := by
  obtain ⟨es, e, hk⟩ := h
  unfold reported; rw [e, List.countP_append, List.countP_eq_zero.mpr, Nat.zero_add]
  intro x hx; have := hk x hx
  cases x <;> simp [reportsCancel] <;> simp [Ev.kind] at this
  · exact absurd this h1
  · exact absurd this h2
theorem canceledTimes_adds {i : Nat} {s t : S} {ks : List Kind} (h : Adds ks s t) (h1 : .cancel ∉ ks) : canceledTimes i t.log = canceledTimes i s.log := by
  obtain ⟨es, e, hk⟩ := h
  unfold canceledTimes; rw [e, List.countP_append, List.countP_eq_zero.mpr, Nat.zero_add]
  intro x hx; have := hk x hx
  cases x <;> simp [cancels] <;> simp [Ev.kind] at this
  exact absurd this h1
theorem reported_lg {i : Nat} {s : S} : reported i (lg i s) = reported i s.log := by
  unfold reported lg; rw [List.countP_filter]
  apply List.countP_congr; intro e _
  cases e <;> simp [reportsCancel, Ev.about]
  · intro h _; exact h
  · intro h _; exact h
theorem canceledTimes_lg {i : Nat} {s : S} : canceledTimes i (lg i s) = canceledTimes i s.log := by
  unfold canceledTimes lg; rw [List.countP_filter]
  apply List.countP_congr; intro e _
  cases e <;> simp [cancels, Ev.about]
  intro h; exact .inr h

/-- the balance of coroutine `i` -/
def Bal (i : Nat) (s t : S) : Prop := bill (t.co i) + reported i t.log + canceledTimes i s.log ≤ bill (s.co i) + reported i s.log + canceledTimes i t.log

theorem Bal.trans {i : Nat} {s t u : S} (h : Bal i s t) (g : Bal i t u) : Bal i s u := by unfold Bal at *; omega
theorem Bal.quiet {i : Nat} {s t : S} {ks : List Kind} (h : bill (t.co i) ≤ bill (s.co i)) (ha : Adds ks s t) (h1 : .ret ∉ ks) (h2 : .kill ∉ ks) (h3 : .cancel ∉ ks) : Bal i s t := by
  unfold Bal; rw [reported_adds ha h1 h2, canceledTimes_adds ha h3]; omega

/-- moves caused by others -/
theorem Mv.bal {i : Nat} {s t : S} (m : Mv i s t) : Bal i s t := by
  have key : ∀ {f : Co → Co} {es gone res up}, Dlt i f es gone res up s t → bill (f (s.co i)) ≤ bill (s.co i) + canceledTimes i es → reported i es = 0 → Bal i s t := by
    intro f es gone res up d h1 h2
    unfold Bal
    rw [d.co, ← reported_lg (s := t), ← reported_lg (s := s), ← canceledTimes_lg (s := t), ← canceledTimes_lg (s := s), d.log]
    unfold reported canceledTimes at *
    rw [List.countP_append, List.countP_append]
    omega
  cases m with
  | same h => exact key h (Nat.le_add_right ..) rfl
  | take c m hn hp hc h => exact key h (Nat.le_add_right ..) rfl
  | takeCase c m k hn hp hc hr h => exact key h (Nat.le_add_right ..) rfl
  | bcast c m hn hp hc h => exact key h (Nat.le_add_right ..) rfl
  | bcastCase c m k hn hp hc hr h => exact key h (Nat.le_add_right ..) rfl
  | close c hn hp hc h => exact key h (Nat.le_add_right ..) rfl
  | closeCase c k hn hp hc hr h => exact key h (Nat.le_add_right ..) rfl
  | skip gone hr hg h => exact key h (Nat.le_add_right ..) rfl
  | sent c hn hp hc h => exact key h (Nat.le_add_right ..) rfl
  | grant m rd hn hr h => exact key h (Nat.le_add_right ..) rfl
  | wake L now hn hL h => exact key h (Nat.le_add_right ..) rfl
  | resumed k hp h => exact key h (Nat.le_add_right ..) rfl
  | canceled k he h =>
    refine key h ?_ rfl
    have : canceledTimes i [.cancel k i] = 1 := by simp [canceledTimes, cancels]
    rw [this]
    unfold bill owes
    simp only [Bool.toNat_true]
    omega
  | fromRes hn h => exact key h (Nat.le_add_right ..) rfl
  | fromIo hn h => exact key h (Nat.le_add_right ..) rfl
  | ready fd w es hn he hes h =>
    refine key h (Nat.le_add_right ..) ?_
    unfold reported; rw [List.countP_eq_zero]; intro e h; rw [hes e h]; simp [reportsCancel]
  | sigTo n hn hm h => exact key h (Nat.le_add_right ..) rfl
  | deadlined hn hd h => exact key h (Nat.le_add_right ..) rfl
  | wdone hj co mem pz dl ev jb log clk =>
    unfold Bal
    rw [co, ← reported_lg (s := t), ← reported_lg (s := s), ← canceledTimes_lg (s := t), ← canceledTimes_lg (s := s), log, reported_cons, canceledTimes_cons]
    have h1 : reported i (leave s i ++ lg i s) = reported i (lg i s) := countP_leave (fun _ => rfl) _
    have h2 : canceledTimes i (leave s i ++ lg i s) = canceledTimes i (lg i s) := countP_leave (fun _ => rfl) _
    rw [h1, h2]
    simp [reportsCancel, cancels]
theorem Mvs.bal {i : Nat} {s t : S} (m : Mvs i s t) : Bal i s t := by
  induction m with
  | refl s => unfold Bal; omega
  | head h _ ih => exact h.bal.trans ih

theorem doRet_bal {s : S} {i : Nat} {v : Int} (hp : (s.co i).pc = .ret v) : Bal i s (doRet s i v) := by
  have hb : bill (s.co i) = (s.co i).canceled.toNat + (decide (v = CANCELED)).toNat := by
    unfold bill owes; rw [hp]; by_cases e : v = CANCELED <;> simp [retPc, relPc, e]
  unfold Bal doRet; split
  · rename_i h
    have e1 : bill ((setPc (note s (.kill i false)) i (.exitRun true)).co i) = (s.co i).canceled.toNat := by
      simp [relPc, bill, owes, setPc_co, retPc]
    rw [e1, hb]
    simp only [setPc_log, note_log, reported_cons, canceledTimes_cons]
    simp [reportsCancel, cancels, h.1]; omega
  · have e1 : bill ((upd (note s (.ret i (s.co i).call v (s.co i).rdat)) i (fun k => { k with pc := .user, call := .none })).co i) = (s.co i).canceled.toNat := by
      simp [relPc, bill, owes, upd_co, retPc]
    rw [e1, hb]
    simp only [upd_log, note_log, reported_cons, canceledTimes_cons]
    by_cases ev : v = CANCELED
    · simp [reportsCancel, cancels, ev]; omega
    · have : (v == CANCELED) = false := by simpa using ev
      simp [reportsCancel, cancels, ev, this]

theorem doCancel_bal {s : S} {i id : Nat} {dl : Int} (hp : (s.co i).pc = .cancelTry) : Bal i s (doCancel s i id dl) := by
  have h0 : owes (s.co i) = false := owes_pc (by rw [hp]; rfl) (by rw [hp]; simp) (by rw [hp]; simp)
  have q : ∀ {t}, t.log = s.log → Spend i s t → Bal i s t := fun hl h => Bal.quiet h.le (.same (ks := []) hl) (by simp) (by simp) (by simp)
  unfold doCancel; split
  · exact q rfl (spend_retv rfl (by decide))
  split
  · exact q rfl (spend_code rfl)
  rename_i h1
  have h1 := Classical.not_not.mp h1
  have hc := dlCode_ok h1
  dsimp only; split
  · have e1 : bill ((scoResume (setPc (note (upd (dlClear s i) id (fun k => { k with canceled := true })) (.cancel i id)) i (.yld 0 (.ret OK))) id).co i) ≤ (decide (id = i)).toNat := by
      simp only [scoResume_co, setPc_co, note_co, upd_co, dlClear_co, if_true]
      by_cases e : i = id
      · subst e; simp [relPc, bill, owes, retPc, OK, CANCELED]
      · simp [e, relPc, bill, owes, retPc, OK, CANCELED]
    unfold Bal
    simp only [scoResume_log, setPc_log, note_log, upd_log, dlClear_log, reported_cons, canceledTimes_cons]
    rw [bill_eq h0, hc]
    by_cases e : id = i
    · simp [reportsCancel, cancels, e] at e1 ⊢; omega
    · simp [reportsCancel, cancels, e] at e1 ⊢; omega
  · exact q (by simp) (spend_clear h1 (spend_pause rfl (by simp)))

theorem relock_bal {s t : S} {i : Nat} (hp : (s.co i).pc = .relock ∨ (s.co i).pc = .blk .relock) (h1 : (t.co i).canceled = (s.co i).canceled) (h2 : (t.co i).sav = (s.co i).sav) (hl : t.log = s.log) {v : Int}
    (hv : v = CANCELED → (s.co i).canceled = true) : Bal i s (setPc (dlClear t i) i .relock) ∧ Bal i s (retv (dlClear t i) i (t.co i).sav) ∧ (v = CANCELED → Bal i s (setPc (note (dlClear t i) (.kill i false)) i (.exitRun true))) := by
  have hb : bill (s.co i) = (s.co i).canceled.toNat + (decide ((s.co i).sav = CANCELED)).toNat := by
    unfold bill owes; rcases hp with hp | hp <;> rw [hp] <;> by_cases e : (s.co i).sav = CANCELED <;> simp [retPc, relPc, e]
  refine ⟨?_, ?_, ?_⟩
  · unfold Bal
    simp only [setPc_log, dlClear_log, hl]
    have : bill ((setPc (dlClear t i) i .relock).co i) = (decide ((s.co i).sav = CANCELED)).toNat := by
      unfold bill owes; simp only [setPc_co, dlClear_co, if_true, h2]
      by_cases e : (s.co i).sav = CANCELED <;> simp [retPc, relPc, e]
    omega
  · unfold Bal
    simp only [retv_log, dlClear_log, hl]
    have : bill ((retv (dlClear t i) i (t.co i).sav).co i) = (decide ((s.co i).sav = CANCELED)).toNat := by
      unfold bill owes; simp only [retv_co, dlClear_co, if_true, h2]
      by_cases e : (s.co i).sav = CANCELED <;> simp [retPc, relPc, e]
    omega
  · intro e
    have hc := hv e
    unfold Bal
    simp only [setPc_log, note_log, dlClear_log, hl, reported_cons, canceledTimes_cons]
    have : bill ((setPc (note (dlClear t i) (.kill i false)) i (.exitRun true)).co i) = 0 := by
      simp [relPc, bill, owes, setPc_co, dlClear_co, retPc]
    rw [this, hb, hc]
    simp [reportsCancel, cancels]; omega

theorem doRelock_bal {s : S} {i m : Nat} (hp : (s.co i).pc = .relock) : Bal i s (doRelock s i m) := by
  have hb : bill (s.co i) = (s.co i).canceled.toNat + (decide ((s.co i).sav = CANCELED)).toNat := by
    unfold bill owes; rw [hp]; by_cases e : (s.co i).sav = CANCELED <;> simp [retPc, relPc, e]
  have key := relock_bal (t := s) (v := dlCode s i MAX) (.inl hp) rfl rfl rfl dlCode_canceled.mp
  unfold doRelock; split
  · unfold Bal
    simp only [retv_log, note_log, setMu_log, reported_cons, canceledTimes_cons]
    have : bill ((retv (note (setMu s m { s.mu m with locked := true }) (.grant m i false)) i (s.co i).sav).co i) = bill (s.co i) := by
      rw [hb]; unfold bill owes; simp only [retv_co, note_co, setMu_co, if_true]
      by_cases e : (s.co i).sav = CANCELED <;> simp [retPc, relPc, e]
    rw [this]; simp [reportsCancel, cancels]
  split
  · rename_i h; exact key.2.2 h.1
  split
  · exact key.1
  · rename_i h
    have h := Classical.not_not.mp h
    have hc := dlCode_ok h
    refine Bal.quiet ?_ (.same (ks := []) (by simp)) (by simp) (by simp) (by simp)
    rw [hb, hc]
    unfold finishLock
    dsimp only
    rw [copause_co, if_pos rfl]
    have : ¬ (((upd (dlClear s i) i fun k => { k with rlocked := false }).co i).canceled = true) := by simp [upd_co, dlClear_co]
    split <;> (unfold bill owes; simp only [push_co, upd_co, dlClear_co, if_true]; by_cases e : (s.co i).sav = CANCELED <;> simp [retPc, relPc, e])

theorem afterBlk_relock (s : S) (i : Nat) : ∃ t, (t.co i).canceled = (s.co i).canceled ∧ (t.co i).sav = (s.co i).sav ∧ t.log = s.log ∧
    afterBlk s i .relock = (if dlCode t i MAX = OK then retv (dlClear t i) i (t.co i).sav
      else if dlCode t i MAX = CANCELED ∧ (t.co i).async = true then setPc (note (dlClear t i) (.kill i false)) i (.exitRun true)
      else setPc (dlClear t i) i .relock) := by
  refine ⟨_, ?_, ?_, ?_, rfl⟩
  · simp [upd_co]
  · simp [upd_co]
  · simp

theorem tauCo_bal {s s' : S} {i : Nat} (hs : tauCo s i = some s') (hf : fits (s.co i)) : Bal i s s' := by
  have ha := tauCo_adds hs
  have q : Spend i s s' → .ret ∉ pcKinds (s.co i).pc → .kill ∉ pcKinds (s.co i).pc → .cancel ∉ pcKinds (s.co i).pc → Bal i s s' := fun h => Bal.quiet h.le ha
  unfold tauCo at hs
  split at hs
  · cases hs
  · cases hs
  · cases hs
  · rename_i e; cases hs; exact doRet_bal e
  · rename_i n a e
    split at hs
    · cases hs
      unfold Bal
      simp only [setPc_log, note_log, reported_cons, canceledTimes_cons]
      have : bill ((setPc (note s (.kill i true)) i (.exitRun true)).co i) = (s.co i).canceled.toNat := by simp [relPc, bill, owes, setPc_co, retPc]
      rw [this]
      have := @le_bill (s.co i)
      simp [reportsCancel, cancels]; omega
    · have key : ∀ p, retPc p = retPc (s.co i).pc → p ≠ .relock → p ≠ .blk .relock → bill { s.co i with pc := p } = bill (s.co i) := by
        intro p h1 h2 h3
        unfold bill owes; simp only [h1]; rw [e]; simp [relPc_of h2 h3, relPc]
      split at hs <;> cases hs
      · refine Bal.quiet (ks := []) ?_ (.same rfl) (by simp) (by simp) (by simp)
        rw [setPc_co, if_pos rfl, key _ (by rw [e]; cases a <;> rfl) (by simp) (by simp)]; exact Nat.le_refl _
      · refine Bal.quiet (ks := []) ?_ (.same rfl) (by simp) (by simp) (by simp)
        rw [coyield_co, if_pos rfl, key _ (by rw [e]; cases a <;> rfl) (by simp) (by simp)]; exact Nat.le_refl _
  · rename_i n a e; cases hs
    refine Bal.quiet (ks := []) ?_ (.same rfl) (by simp) (by simp) (by simp)
    rw [coyield_co, if_pos rfl]
    unfold bill owes; rw [e]; cases a <;> simp [retPc, relPc]
  · rename_i a e; cases hs
    rw [e] at q
    by_cases h : ∃ v, a = .ret v
    · obtain ⟨v, rfl⟩ := h
      refine Bal.quiet (ks := []) ?_ (.same rfl) (by simp) (by simp) (by simp)
      simp only [doAft]
      rw [retv_co, if_pos rfl]
      unfold bill owes; rw [e]; simp [retPc, relPc]
    · refine q (doAft_spend a (fun v ev => h ⟨v, ev⟩) (owes_pc ?_ (by rw [e]; simp) (by rw [e]; simp))) (by simp [pcKinds]) (by simp [pcKinds]) (by simp [pcKinds])
      rw [e]; cases a <;> first | rfl | exact absurd ⟨_, rfl⟩ h
  · rename_i e; cases hs; rw [e] at q; exact q (spend_retv rfl ofNat_ne) (by simp [pcKinds]) (by simp [pcKinds]) (by simp [pcKinds])
  · rename_i b e; cases hs
    by_cases hb : b = .relock
    · subst hb
      obtain ⟨t, h1, h2, hl, et⟩ := afterBlk_relock (preBlk (unpause s i) i .relock) i
      have h1 : (t.co i).canceled = (s.co i).canceled := h1.trans (unpause_canceled s i)
      have h2 : (t.co i).sav = (s.co i).sav := h2.trans (unpause_sav s i i)
      have hl : t.log = s.log := hl.trans (by simp [preBlk])
      rw [et]
      have key := relock_bal (v := dlCode t i MAX) (.inr e) h1 h2 hl (fun x => by rw [← h1]; exact dlCode_canceled.mp x)
      split
      · exact key.2.1
      split
      · rename_i h; exact key.2.2 h.1
      · exact key.1
    · have hr : b = .sel → -1 ≤ ((preBlk (unpause s i) i b).co i).retIdx := by
        intro hb; subst hb
        have h1 : ((unpause s i).co i).retIdx = (s.co i).retIdx := by
          unfold unpause; split
          · simp [upd_co]
          · rfl
        rw [preBlk_co, h1]
        unfold fits at hf; rw [e] at hf; obtain ⟨_, _, _, hf⟩ := hf
        omega
      have h := afterBlk_spend (s := s) (i := i) (t := preBlk (unpause s i) i b) hb hr (by rw [preBlk_co]; exact unpause_canceled s i)
      have := @le_bill (s.co i)
      refine Bal.quiet (by omega) ha ?_ ?_ ?_ <;> rw [e] <;> cases b <;> simp_all [pcKinds]
  · rename_i e; split at hs <;> cases hs
    · exact doCancel_bal e
    · unfold Bal; dsimp only; omega
  · rename_i e; split at hs <;> cases hs
    · exact doRelock_bal e
    · unfold Bal; dsimp only; omega
  · rename_i e; cases hs; rw [e] at q; exact q (spend_retv rfl (by decide)) (by simp [pcKinds]) (by simp [pcKinds]) (by simp [pcKinds])
  · rename_i a e; cases hs; rw [e] at q
    have h0 : owes (s.co i) = false := owes_pc (by rw [e]; rfl) (by rw [e]; simp) (by rw [e]; simp)
    refine q ?_ (by simp [pcKinds]) (by simp [pcKinds]) (by simp [pcKinds])
    unfold doExit; (repeat' split)
    · exact .inl ⟨by simp [upd_co], by simpa [upd_co, owes] using h0⟩
    · exact exitNotify_spend _ h0
    · exact exitNotify_spend _ h0

/-! ## The invariant -/

theorem Mv.reported {i : Nat} {s t : S} (m : Mv i s t) : Rt.reported i t.log = Rt.reported i s.log := by
  have key : ∀ {f : Co → Co} {es gone res up}, Dlt i f es gone res up s t → Rt.reported i es = 0 → Rt.reported i t.log = Rt.reported i s.log := by
    intro f es gone res up d h
    rw [← reported_lg (s := t), ← reported_lg (s := s), d.log]
    unfold Rt.reported at *
    rw [List.countP_append, h, Nat.zero_add]
  cases m
  case wdone log clk => rw [← reported_lg (s := t), ← reported_lg (s := s), log, reported_cons]; exact countP_leave (fun _ => rfl) _
  case ready es hn he hes h =>
    refine key h ?_
    unfold Rt.reported; rw [List.countP_eq_zero]; intro e h; rw [hes e h]; simp [reportsCancel]
  all_goals (rename_i h; exact key h rfl)
theorem Mvs.reported {i : Nat} {s t : S} (m : Mvs i s t) : Rt.reported i t.log = Rt.reported i s.log := by
  induction m with
  | refl s => rfl
  | head h _ ih => exact ih.trans h.reported

theorem step_bal {ok} {s s' : S} {a : Act} (r : Reach ok s) (hs : step s a = some s') (j : Nat) (hn : a = .call .start ∨ a = .call .genStart → j ≠ s.sco.nextId + 1) : Bal j s s' := by
  have hw := reach_scoWF r
  by_cases hj : s.sco.cur = some j
  · cases a with
    | call c =>
      obtain ⟨hu, _, rfl⟩ := step_call_of hs hj
      have ha := step_adds hs
      have h0 : owes (s.co j) = false := owes_pc (by rw [hu]; rfl) (by rw [hu]; simp) (by rw [hu]; simp)
      have e1 : owes ((callSt s j c).co j) = false := by
        have := callSt_field (s := s) (i := j) (c := c) Co.pc (by intros; rfl) (j := j)
        exact owes_pc (by rw [this, hu]; rfl) (by rw [this, hu]; simp) (by rw [this, hu]; simp)
      have h1 := (doCall_spend (s := callSt s j c) (i := j) c (cur_le hw hj).2 e1).le
      have e2 : bill ((callSt s j c).co j) = bill (s.co j) := by
        rw [bill_eq e1, bill_eq h0, callSt_field Co.canceled (by intros; rfl)]
      rw [e2] at h1
      refine Bal.quiet h1 ha ?_ ?_ ?_ <;> (cases c <;> simp [stepKinds, callKinds])
    | tau =>
      have ht : tauCo s j = some s' := by
        unfold step at hs; split at hs
        · cases hs
        · simpa [hj] using hs
      exact tauCo_bal ht (reach_invN r (step_nofault hs) j).ft
    | finish =>
      have ha := step_adds hs
      have : (s.co j).pc = .user ∧ s' = setPc s j (.exitRun false) := by
        unfold step at hs; simp only [hj] at hs; (repeat' split at hs) <;> cases hs; exact ⟨by assumption, rfl⟩
      obtain ⟨hu, rfl⟩ := this
      refine Bal.quiet ?_ ha (by simp [stepKinds]) (by simp [stepKinds]) (by simp [stepKinds])
      rw [bill_eq (k := s.co j) (owes_pc (by rw [hu]; rfl) (by rw [hu]; simp) (by rw [hu]; simp))]
      simp [bill, owes, setPc_co, retPc, relPc]
    | submit o =>
      have ha := step_adds hs
      have : (s.co j).pc = .workTry ∧ ((s'.co j) = { s.co j with pc := .workWait } ∨ s'.co j = s.co j) := by
        unfold step at hs; simp only [hj] at hs; (repeat' split at hs) <;> cases hs
        · exact ⟨by assumption, .inl (by simp [setPc_co])⟩
        · exact ⟨by assumption, .inr rfl⟩
      obtain ⟨hu, h⟩ := this
      refine Bal.quiet ?_ ha (by simp [stepKinds]) (by simp [stepKinds]) (by simp [stepKinds])
      rcases h with h | h <;> rw [h]
      · simp [bill, owes, hu, retPc, relPc]
      · exact Nat.le_refl _
    | events evs =>
      unfold step at hs; split at hs
      · cases hs
      simp only at hs
      split at hs
      · rename_i h; rw [hj] at h; cases h.1
      · cases hs
    | clock t => exact (env_mvs hs (.inl ⟨t, rfl⟩) j).bal
    | signal n => exact (env_mvs hs (.inr (.inl ⟨n, rfl⟩)) j).bal
    | wdone k => exact (env_mvs hs (.inr (.inr ⟨k, rfl⟩)) j).bal
  · exact (step_other (reach_invL r) (reach_invC r) hs hj hn (((reach_invF r).cf j).evU)).bal

structure InvCan (s : S) : Prop where
  le : s.fault = false → ∀ j, bill (s.co j) + Rt.reported j s.log ≤ canceledTimes j s.log
  fr : ∀ j, s.sco.nextId < j → Rt.reported j s.log = 0

theorem reach_invCan {s : S} (r : Reach Unflagged s) : InvCan s := by
  induction r with
  | init a e =>
    refine ⟨fun _ j => ?_, fun j _ => ?_⟩
    · simp only [init]; split <;> simp [bill, owes, retPc, relPc, Rt.reported, canceledTimes, reportsCancel, cancels]
    · simp [init, Rt.reported, reportsCancel]
  | @step s s' r a hok hs ih =>
    have hw := reach_scoWF r
    have hnx := step_nextId hw hs
    refine ⟨fun _ j => ?_, fun j hj => ?_⟩
    · have hf := step_nofault hs
      by_cases hn : (a = .call .start ∨ a = .call .genStart) ∧ j = s.sco.nextId + 1
      · obtain ⟨ha, rfl⟩ := hn
        obtain ⟨i, g, hc, e1, _, _, _, _, _, hl, _⟩ := start_new ha hs
        have h0 : (newCo s i g).canceled = false := by
          refine newCo_canceled ?_ i g
          rcases ha with rfl | rfl
          · exact hok (.inl rfl)
          · exact hok (.inr rfl)
        rw [e1, bill_eq (owes_pc (by rw [(newCo_pc s i g).1]; rfl) (by rw [(newCo_pc s i g).1]; simp) (by rw [(newCo_pc s i g).1]; simp)), h0]
        have := ih.fr _ (Nat.lt_succ_self s.sco.nextId)
        rcases hl with hl | hl <;> rw [hl] <;> simp [reported_cons, canceledTimes_cons, reportsCancel, cancels, this]
      · have h1 := step_bal r hs j (fun ha e => hn ⟨ha, e⟩)
        have h2 := ih.le hf j
        unfold Bal at h1; omega
    · by_cases hn : (a = .call .start ∨ a = .call .genStart) ∧ j = s.sco.nextId + 1
      · obtain ⟨ha, rfl⟩ := hn
        obtain ⟨i, g, hc, e1, _, _, _, _, e2, _⟩ := start_new ha hs
        rw [e2] at hj; unfold Sco.start at hj; rw [hc] at hj; simp at hj
      · have hc : s.sco.cur ≠ some j := fun e => by have := (cur_le hw e).2; omega
        rw [(step_other (reach_invL r) (reach_invC r) hs hc (fun ha e => hn ⟨ha, e⟩) (((reach_invF r).cf j).evU)).reported]
        exact ih.fr j (by omega)

theorem doRet_log' {s : S} {i : Nat} {v : Int} : (doRet s i v).log = .kill i false :: s.log ∨ (doRet s i v).log = .ret i (s.co i).call v (s.co i).rdat :: s.log := by
  unfold doRet; split
  · exact .inl rfl
  · exact .inr rfl
theorem doRelock_log' {s : S} {i m : Nat} : (doRelock s i m).log = s.log ∨ (doRelock s i m).log = .grant m i false :: s.log ∨ (doRelock s i m).log = .kill i false :: s.log := by
  unfold doRelock; (repeat' split) <;> simp
theorem relock_log' {s : S} {i : Nat} : (afterBlk (preBlk (unpause s i) i .relock) i .relock).log = s.log ∨ (afterBlk (preBlk (unpause s i) i .relock) i .relock).log = .kill i false :: s.log := by
  obtain ⟨t, _, _, hl, e⟩ := afterBlk_relock (preBlk (unpause s i) i .relock) i
  have hl : t.log = s.log := hl.trans (by simp [preBlk])
  rw [e]; (repeat' split) <;> simp [hl]

/-- an event that ends a call or a coroutine is the only one of its step -/
theorem step_report {s s' : S} {a : Act} {es x y : List Ev} {e : Ev} (hs : step s a = some s') (hl : s'.log = es ++ s.log) (he : es = x ++ e :: y) (hk : e.kind = .ret ∨ e.kind = .kill) :
    es = [e] ∧ ∃ i, s.sco.cur = some i ∧ (∀ i', e = .kill i' true → i' = i ∧ (s.co i).canceled = true) := by
  have hks : e.kind ∈ stepKinds s a := by
    obtain ⟨fs, h1, h2⟩ := step_adds hs
    rw [hl] at h1
    have := List.append_cancel_right h1
    subst this
    exact h2 e (by rw [he]; simp)
  have key : ∀ e', s'.log = e' :: s.log → es = [e] ∧ e' = e := by
    intro e' h
    rw [hl, show e' :: s.log = [e'] ++ s.log from rfl] at h
    have := List.append_cancel_right h
    rw [this] at he
    cases x with
    | nil => simp at he; obtain ⟨rfl, rfl⟩ := he; exact ⟨this, rfl⟩
    | cons z x => simp at he
  cases a
  case tau =>
    simp only [stepKinds] at hks
    cases hc : s.sco.cur with
    | none =>
      rw [hc] at hks; simp only at hks
      rcases hk with h | h <;> rw [h] at hks <;> (cases hm : s.main <;> rw [hm] at hks <;> simp [mainKinds] at hks)
    | some i =>
      rw [hc] at hks; simp only at hks
      have ht : tauCo s i = some s' := by
        unfold step at hs; split at hs
        · cases hs
        · simpa [hc] using hs
      have same : s'.log ≠ s.log := by
        intro h
        rw [hl] at h
        have : es = [] := by simpa using h
        rw [he] at this; simp at this
      have fin : ∀ e', s'.log = e' :: s.log → (∀ i', e' ≠ .kill i' true) → es = [e] ∧ ∃ i_1, some i = some i_1 ∧ ∀ i', e = .kill i' true → i' = i_1 ∧ (s.co i_1).canceled = true := by
        intro e' h1 h2
        obtain ⟨h3, rfl⟩ := key e' h1
        exact ⟨h3, i, rfl, fun i' h => absurd h (h2 i')⟩
      unfold tauCo at ht
      split at ht <;> (rename_i hp; rw [hp] at hks)
      all_goals try (rcases hk with h | h <;> rw [h] at hks <;> simp [pcKinds] at hks; done)
      · cases ht
        rcases doRet_log' (s := s) (i := i) with h | h
        · exact fin _ h (by simp)
        · exact fin _ h (by simp)
      · split at ht
        · cases ht
          obtain ⟨h3, rfl⟩ := key _ rfl
          exact ⟨h3, i, rfl, fun i' h => by cases h; rename_i hg; exact ⟨rfl, hg.1⟩⟩
        · split at ht <;> cases ht <;> exact absurd (by simp) same
      · cases ht
        rename_i b
        have hb : b = .relock := by
          rcases hk with h | h <;> rw [h] at hks <;> (cases b <;> simp [pcKinds] at hks)
          rfl
        subst hb
        rcases relock_log' (s := s) (i := i) with h | h
        · exact absurd h same
        · exact fin _ h (by simp)
      · split at ht
        · cases ht
          rename_i m _ _
          rcases doRelock_log' (s := s) (i := i) (m := m) with h | h | h
          · exact absurd h same
          · exact fin _ h (by simp)
          · exact fin _ h (by simp)
        · cases ht; exact absurd rfl same
  all_goals (rcases hk with h | h <;> rw [h] at hks <;> simp [stepKinds] at hks)
  all_goals (rename_i c; cases c <;> simp [callKinds] at hks)

/-- whenever a cancelation is reported, or a coroutine is terminated, there was a cancelation that had not been reported -/
theorem report_lt {s : S} (r : Reach Unflagged s) (hf : s.fault = false) : ∀ {x b : List Ev} {e : Ev} {i : Nat}, s.log = x ++ e :: b → (reportsCancel i e = true ∨ e = .kill i true) → Rt.reported i b < canceledTimes i b := by
  induction r with
  | init a e =>
    intro x b e i h he
    simp only [init] at h
    cases x with
    | nil => simp at h; rw [← h.1] at he; simp [reportsCancel] at he
    | cons => simp at h
  | @step s s' r a hok hs ih =>
    intro x b e i h he
    have hf0 := step_nofault hs
    obtain ⟨es, hes, _⟩ := step_adds hs
    have hk : e.kind = .ret ∨ e.kind = .kill := by
      rcases he with he | he
      · cases e <;> simp [reportsCancel] at he <;> simp [Ev.kind]
      · subst he; exact .inr rfl
    rw [hes] at h
    rcases List.append_eq_append_iff.mp h with ⟨z, h1, h2⟩ | ⟨z, h1, h2⟩
    · exact ih hf0 h2 he
    · cases z with
      | nil => exact ih hf0 (x := []) (by simpa using h2.symm) he
      | cons w z =>
        simp at h2; obtain ⟨rfl, rfl⟩ := h2
        obtain ⟨h3, k, hc, hkt⟩ := step_report hs hes h1 hk
        have hz : z = [] := by rw [h3] at h1; cases x with
          | nil => simp at h1; exact h1
          | cons => simp at h1
        subst hz
        simp only [List.nil_append]
        rcases he with he | he
        · have := (reach_invCan (.step r a hok hs)).le hf i
          rw [hes, h3] at this
          simp only [List.singleton_append, reported_cons, canceledTimes_cons, he] at this
          have hz : cancels i e = false := by cases e <;> simp [reportsCancel] at he <;> rfl
          rw [hz] at this; simp at this; omega
        · subst he
          obtain ⟨rfl, hcan⟩ := hkt i rfl
          have := (reach_invCan r).le hf0 i
          have h2 := @le_bill (s.co i)
          rw [hcan] at h2; simp at h2; omega

end Neco.Rt
