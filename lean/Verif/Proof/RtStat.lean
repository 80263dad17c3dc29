import Verif.Proof.RtView
import Verif.Proof.RtSub
/-!
# The settings of a coroutine that only few operations change (partly generated by hand-written rules)
-/
namespace Neco.Rt
open Neco.Err

/-- the part of a record that waiting, waking and returning do not touch -/
def stat (k : Co) : Call × Nat × Nat × Bool × Bool × List Nat × Nat × Option Nat × Nat :=
  (k.call, k.starterid, k.lastid, k.async, k.enabled, k.cleanup, k.sigwatch, k.gen, k.blk)

theorem stat_upd' {s : S} {i j : Nat} {f : Co → Co} (h : ∀ k, stat (f k) = stat k) : stat ((upd s i f).co j) = stat (s.co j) := by
  rw [upd_co]; split
  · subst_vars; exact h _
  · rfl
@[simp] theorem stat_pc (k : Co) (x : Pc) : stat { k with pc := x } = stat k := rfl
@[simp] theorem stat_setPc (s : S) (i j : Nat) (p : Pc) : stat ((setPc s i p).co j) = stat (s.co j) := stat_upd' (fun _ => rfl)
@[simp] theorem stat_retv (s : S) (i j : Nat) (v : Int) : stat ((retv s i v).co j) = stat (s.co j) := stat_setPc ..
@[simp] theorem stat_dlClear (s : S) (i j : Nat) : stat ((dlClear s i).co j) = stat (s.co j) := stat_upd' (fun _ => rfl)
@[simp] theorem stat_canceled (s : S) (i j : Nat) (b : Bool) : stat ((upd s i (fun k => { k with canceled := b })).co j) = stat (s.co j) := stat_upd' (fun _ => rfl)
@[simp] theorem stat_rdat (s : S) (i j : Nat) (b : Msg) : stat ((upd s i (fun k => { k with rdat := b })).co j) = stat (s.co j) := stat_upd' (fun _ => rfl)
@[simp] theorem stat_smsg (s : S) (i j : Nat) (b : Msg) : stat ((upd s i (fun k => { k with smsg := b })).co j) = stat (s.co j) := stat_upd' (fun _ => rfl)
@[simp] theorem stat_retIdx (s : S) (i j : Nat) (b : Int) : stat ((upd s i (fun k => { k with retIdx := b })).co j) = stat (s.co j) := stat_upd' (fun _ => rfl)
@[simp] theorem stat_cclosed (s : S) (i j : Nat) (b : Bool) : stat ((upd s i (fun k => { k with cclosed := b })).co j) = stat (s.co j) := stat_upd' (fun _ => rfl)
@[simp] theorem stat_retIdxC (s : S) (i j : Nat) (b : Int) (c : Bool) : stat ((upd s i (fun k => { k with retIdx := b, cclosed := c })).co j) = stat (s.co j) := stat_upd' (fun _ => rfl)
@[simp] theorem stat_cclosedR (s : S) (i j : Nat) (b : Bool) (m : Msg) : stat ((upd s i (fun k => { k with cclosed := b, rdat := m })).co j) = stat (s.co j) := stat_upd' (fun _ => rfl)
@[simp] theorem stat_rlocked (s : S) (i j : Nat) (b : Bool) : stat ((upd s i (fun k => { k with rlocked := b })).co j) = stat (s.co j) := stat_upd' (fun _ => rfl)
@[simp] theorem stat_suspended (s : S) (i j : Nat) (b : Bool) : stat ((upd s i (fun k => { k with suspended := b })).co j) = stat (s.co j) := stat_upd' (fun _ => rfl)
@[simp] theorem stat_sigmask (s : S) (i j : Nat) (b : Nat) : stat ((upd s i (fun k => { k with sigmask := b })).co j) = stat (s.co j) := stat_upd' (fun _ => rfl)
@[simp] theorem stat_sigmaskW (s : S) (i j : Nat) : stat ((upd s i (fun k => { k with sigmask := k.sigwatch })).co j) = stat (s.co j) := stat_upd' (fun _ => rfl)
@[simp] theorem stat_sav (s : S) (i j : Nat) (b : Int) : stat ((upd s i (fun k => { k with sav := b })).co j) = stat (s.co j) := stat_upd' (fun _ => rfl)
@[simp] theorem stat_coyield (s : S) (i n j : Nat) (a : Aft) : stat ((coyield s i n a).co j) = stat (s.co j) := by
  show stat ((setPc s i _).co j) = _; simp
@[simp] theorem stat_yfsr (s : S) (i n j : Nat) (a : Aft) : stat ((yfsr s i n a).co j) = stat (s.co j) := stat_coyield ..
@[simp] theorem stat_copause (s : S) (i j : Nat) (dl : Int) (b : Blk) : stat ((copause s i dl b).co j) = stat (s.co j) := by
  unfold copause; dsimp only; split
  · simp
  · exact stat_upd' (s := s) (f := fun c => { c with pc := .blk b, deadline := dl, paused := true }) (fun _ => rfl)
@[simp] theorem stat_unpause (s : S) (i j : Nat) : stat ((unpause s i).co j) = stat (s.co j) := by
  unfold unpause; split
  · exact stat_upd' (s := s) (f := fun c => { c with paused := false, deadline := 0 }) (fun _ => rfl)
  · rfl
@[simp] theorem stat_sendLoop (s : S) (c : Nat) (m : Msg) (q : List Node) (j : Nat) : stat ((sendLoop s c m q).1.co j) = stat (s.co j) := by
  induction q generalizing s with
  | nil => simp [sendLoop]
  | cons n q ih =>
    cases n with
    | co r => simp [sendLoop]
    | case r k => simp only [sendLoop]; split <;> simp [ih]
@[simp] theorem stat_bcastLoop (s : S) (c : Nat) (m : Msg) (q : List Node) (j : Nat) : stat ((bcastLoop s c m q).1.co j) = stat (s.co j) := by
  induction q generalizing s with
  | nil => simp [bcastLoop]
  | cons n q ih =>
    cases n with
    | co r => simp [bcastLoop, ih]
    | case r k => simp only [bcastLoop]; split <;> simp [ih]
@[simp] theorem stat_closeLoop (s : S) (c : Nat) (q : List Node) (j : Nat) : stat ((closeLoop s c q).co j) = stat (s.co j) := by
  induction q generalizing s with
  | nil => simp [closeLoop]
  | cons n q ih =>
    cases n with
    | co r => simp [closeLoop, ih]
    | case r k => simp only [closeLoop]; split <;> simp [ih]
@[simp] theorem stat_chanRecv (s : S) (i c j : Nat) (t : Bool) (dl : Int) : stat ((chanRecv s i c t dl).co j) = stat (s.co j) := by
  unfold chanRecv; dsimp only; (repeat' split) <;> first | (rename_i h; simp [recvNow_co h]; done) | simp
@[simp] theorem stat_chanSelect (s : S) (i j : Nat) (cs : List Nat) (dl : Int) (t : Bool) : stat ((chanSelect s i cs dl t).co j) = stat (s.co j) := by
  unfold chanSelect; dsimp only; (repeat' split) <;> first | (rename_i h; simp [recvNow_co h]; done) | simp

@[simp] theorem stat_sendTry (s : S) (c : Nat) (m : Msg) (ch : Chan) (j : Nat) : stat ((sendTry s c m ch).1.co j) = stat (s.co j) := by
  unfold sendTry; (try dsimp only); (repeat' split) <;> simp
@[simp] theorem stat_bcastTry (s : S) (c : Nat) (m : Msg) (ch : Chan) (j : Nat) : stat ((bcastTry s c m ch).1.co j) = stat (s.co j) := by
  unfold bcastTry; (try dsimp only); (repeat' split) <;> simp
@[simp] theorem stat_sendRest (s : S) (i c : Nat) (m : Msg) (dl : Int) (ch : Chan) (j : Nat) : stat ((sendRest s i c m dl ch).co j) = stat (s.co j) := by
  unfold sendRest; (try dsimp only); (repeat' split) <;> simp
@[simp] theorem stat_chanSend (s : S) (i c : Nat) (m : Msg) (dl : Int) (j : Nat) : stat ((chanSend s i c m dl).co j) = stat (s.co j) := by
  unfold chanSend; (try dsimp only); (repeat' split) <;> simp
@[simp] theorem stat_chanBcast (s : S) (i c : Nat) (m : Msg) (j : Nat) : stat ((chanBcast s i c m).co j) = stat (s.co j) := by
  unfold chanBcast; (try dsimp only); (repeat' split) <;> simp
@[simp] theorem stat_chanClose1 (s : S) (i c : Nat) (ch : Chan) (a : Aft) (j : Nat) : stat ((chanClose1 s i c ch a).co j) = stat (s.co j) := by
  unfold chanClose1; (try dsimp only); (repeat' split) <;> simp
@[simp] theorem stat_chanClose (s : S) (i c : Nat) (j : Nat) : stat ((chanClose s i c).co j) = stat (s.co j) := by
  unfold chanClose; (try dsimp only); (repeat' split) <;> simp
@[simp] theorem stat_chanCase (s : S) (i c : Nat) (j : Nat) : stat ((chanCase s i c).co j) = stat (s.co j) := by
  unfold chanCase; (try dsimp only); (repeat' split) <;> simp
@[simp] theorem stat_finishLock (s : S) (i m : Nat) (rd : Bool) (dl : Int) (b : Blk) (j : Nat) : stat ((finishLock s i m rd dl b).co j) = stat (s.co j) := by
  unfold finishLock; (try dsimp only); (repeat' split) <;> simp
@[simp] theorem stat_muLock (s : S) (i m : Nat) (dl : Int) (j : Nat) : stat ((muLock s i m dl).co j) = stat (s.co j) := by
  unfold muLock; (try dsimp only); (repeat' split) <;> simp
@[simp] theorem stat_muRdlock (s : S) (i m : Nat) (dl : Int) (j : Nat) : stat ((muRdlock s i m dl).co j) = stat (s.co j) := by
  unfold muRdlock; (try dsimp only); (repeat' split) <;> simp
@[simp] theorem stat_muTrylock (s : S) (i m : Nat) (j : Nat) : stat ((muTrylock s i m).co j) = stat (s.co j) := by
  unfold muTrylock; (try dsimp only); (repeat' split) <;> simp
@[simp] theorem stat_muTryrdlock (s : S) (i m : Nat) (j : Nat) : stat ((muTryrdlock s i m).co j) = stat (s.co j) := by
  unfold muTryrdlock; (try dsimp only); (repeat' split) <;> simp
@[simp] theorem stat_muUnlock (s : S) (i m : Nat) (j : Nat) : stat ((muUnlock s i m).co j) = stat (s.co j) := by
  unfold muUnlock; (try dsimp only); (repeat' split) <;> simp
@[simp] theorem stat_wgAdd (s : S) (i w : Nat) (d : Int) (j : Nat) : stat ((wgAdd s i w d).co j) = stat (s.co j) := by
  unfold wgAdd; (try dsimp only); (repeat' split) <;> simp
@[simp] theorem stat_wgDone (s : S) (i w : Nat) (j : Nat) : stat ((wgDone s i w).co j) = stat (s.co j) := by
  unfold wgDone; (try dsimp only); (repeat' split) <;> simp
@[simp] theorem stat_wgWait (s : S) (i w : Nat) (dl : Int) (j : Nat) : stat ((wgWait s i w dl).co j) = stat (s.co j) := by
  unfold wgWait; (try dsimp only); (repeat' split) <;> simp
@[simp] theorem stat_cvSignal (s : S) (i v : Nat) (j : Nat) : stat ((cvSignal s i v).co j) = stat (s.co j) := by
  unfold cvSignal; (try dsimp only); (repeat' split) <;> simp
@[simp] theorem stat_cvBcast (s : S) (i v : Nat) (j : Nat) : stat ((cvBcast s i v).co j) = stat (s.co j) := by
  unfold cvBcast; (try dsimp only); (repeat' split) <;> simp
@[simp] theorem stat_cvEnq (s : S) (i v : Nat) (dl : Int) (j : Nat) : stat ((cvEnq s i v dl).co j) = stat (s.co j) := by
  unfold cvEnq; (try dsimp only); (repeat' split) <;> simp
@[simp] theorem stat_cvWait (s : S) (i v m : Nat) (dl : Int) (j : Nat) : stat ((cvWait s i v m dl).co j) = stat (s.co j) := by
  unfold cvWait; (try dsimp only); (repeat' split) <;> simp
@[simp] theorem stat_doSleep (s : S) (i : Nat) (dl : Int) (j : Nat) : stat ((doSleep s i dl).co j) = stat (s.co j) := by
  unfold doSleep; (try dsimp only); (repeat' split) <;> simp
@[simp] theorem stat_doJoin (s : S) (i id : Nat) (dl : Int) (j : Nat) : stat ((doJoin s i id dl).co j) = stat (s.co j) := by
  unfold doJoin; (try dsimp only); (repeat' split) <;> simp
@[simp] theorem stat_doSuspend (s : S) (i : Nat) (dl : Int) (j : Nat) : stat ((doSuspend s i dl).co j) = stat (s.co j) := by
  unfold doSuspend; (try dsimp only); (repeat' split) <;> simp
@[simp] theorem stat_doResume (s : S) (i id : Nat) (j : Nat) : stat ((doResume s i id).co j) = stat (s.co j) := by
  unfold doResume; (try dsimp only); (repeat' split) <;> simp
@[simp] theorem stat_doSigWait (s : S) (i : Nat) (dl : Int) (j : Nat) : stat ((doSigWait s i dl).co j) = stat (s.co j) := by
  unfold doSigWait; (try dsimp only); (repeat' split) <;> simp
@[simp] theorem stat_doWait (s : S) (i fd : Nat) (wr : Bool) (dl : Int) (j : Nat) : stat ((doWait s i fd wr dl).co j) = stat (s.co j) := by
  unfold doWait; (try dsimp only); (repeat' split) <;> simp
@[simp] theorem stat_doGenYield (s : S) (i : Nat) (m : Msg) (dl : Int) (j : Nat) : stat ((doGenYield s i m dl).co j) = stat (s.co j) := by
  unfold doGenYield; (try dsimp only); (repeat' split) <;> simp
@[simp] theorem stat_doRelock (s : S) (i m : Nat) (j : Nat) : stat ((doRelock s i m).co j) = stat (s.co j) := by
  unfold doRelock; (try dsimp only); (repeat' split) <;> simp
@[simp] theorem stat_doCancel (s : S) (i id j : Nat) (dl : Int) : stat ((doCancel s i id dl).co j) = stat (s.co j) := by
  unfold doCancel; dsimp only; (repeat' split) <;> simp
@[simp] theorem stat_afterBlk (s : S) (i j : Nat) (b : Blk) : stat ((afterBlk s i b).co j) = stat (s.co j) := by
  cases b <;> simp only [afterBlk] <;> (repeat' split) <;> simp
@[simp] theorem stat_exitNotify (s : S) (i j : Nat) (a : Bool) : stat ((exitNotify s i a).co j) = stat (s.co j) := by
  unfold exitNotify; dsimp only; (repeat' split) <;> simp
@[simp] theorem stat_doFin (s : S) (i j : Nat) (a : Bool) : stat ((doFin s i a).co j) = stat (s.co j) := by
  unfold doFin; simp
@[simp] theorem stat_markDl (s : S) (q : List Nat) (j : Nat) : stat ((markDl s q).co j) = stat (s.co j) := by
  unfold markDl; dsimp only; split <;> rfl
@[simp] theorem stat_mDl (s : S) (j : Nat) : stat ((mDl s).co j) = stat (s.co j) := by
  unfold mDl; simp
@[simp] theorem stat_mSig (s : S) (j : Nat) : stat ((mSig s).co j) = stat (s.co j) := by
  unfold mSig; dsimp only; (repeat' split) <;> simp

/-- what a call changes of the settings of the caller, besides the call being executed -/
def callStat (s : S) (i : Nat) (c : Call) (k : Co) : Co :=
  match c with
  | .start | .genStart => { k with lastid := s.sco.nextId + 1 }
  | .setType a => { k with async := a }
  | .setState e => { k with enabled := e }
  | .cpush h => { k with cleanup := h :: k.cleanup }
  | .cpop _ => { k with cleanup := k.cleanup.tail }
  | .sigWatch n => if n < 1 ∨ n > 31 then k else { k with sigwatch := k.sigwatch ||| (1 <<< n) }
  | .sigUnwatch n => if (n < 1 ∨ n > 31) ∨ k.sigwatch.testBit n = false then k else { k with sigwatch := k.sigwatch ^^^ (1 <<< n) }
  | _ => k

/-- how a step changes the settings of coroutine `j` -/
inductive StatStep (s : S) (a : Act) (j : Nat) (s' : S) : Prop
  | same (h : stat (s'.co j) = stat (s.co j)) (hn : ∀ c, a = .call c → s.sco.cur ≠ some j)
  | call (c : Call) (ha : a = .call c) (hc : s.sco.cur = some j) (hp : (s.co j).pc = .user)
      (h : stat (s'.co j) = stat (callStat s j c { s.co j with call := c }))
  | new (i : Nat) (g : Option Nat) (ha : a = .call .start ∧ g = none ∨ a = .call .genStart ∧ g = some s.nchan) (hi : s.sco.cur = some i) (hj : j = s.sco.nextId + 1) (h : s'.co j = newCo s i g)
  | ret (v : Int) (ha : a = .tau) (hc : s.sco.cur = some j) (hp : (s.co j).pc = .ret v) (h : stat (s'.co j) = stat { s.co j with call := .none })
  | clean (x : Nat) (q : List Nat) (ha : a = .tau) (hc : s.sco.cur = some j) (hp : (s.co j).pc = .exitRun true) (hq : (s.co j).cleanup = x :: q) (h : stat (s'.co j) = stat { s.co j with cleanup := q })
  | genRel (x y : Bool) (ha : a = .tau) (hc : s.sco.cur = some j) (hp : (s.co j).pc = .go (.genRel x y)) (h : stat (s'.co j) = stat { s.co j with gen := none })

theorem stat_updI {s : S} {i : Nat} {f : Co → Co} : stat ((upd s i f).co i) = stat (f (s.co i)) := by rw [upd_co, if_pos rfl]
theorem stat_updO {s : S} {i j : Nat} (h : j ≠ i) {f : Co → Co} : stat ((upd s i f).co j) = stat (s.co j) := by rw [upd_co, if_neg h]

theorem doCall_statO {s : S} {i j : Nat} (hj : j ≠ i) (c : Call) (hn : c = .start ∨ c = .genStart → j ≠ s.sco.nextId + 1) : stat ((doCall s i c).co j) = stat (s.co j) := by
  cases c
  case start => simp [doCall, doStart, upd_co, hn (.inl rfl), hj]
  case genStart => simp [doCall, doGenStart, doStart, upd_co, hn (.inr rfl), hj]
  case setType a => simp [doCall, upd_co, hj]
  case setState a => simp [doCall, upd_co, hj]
  case cpush a => simp [doCall, upd_co, hj]
  case cpop a => simp only [doCall, doCpop]; (repeat' split) <;> simp [upd_co, hj]
  case sigWatch n => simp only [doCall, doSigWatch]; (repeat' split) <;> simp [upd_co, hj]
  case sigUnwatch n => simp only [doCall, doSigUnwatch]; (repeat' split) <;> simp [upd_co, hj]
  case chRetain c => simp only [doCall]; split <;> simp
  all_goals simp [doCall]

theorem or_testBit {a n : Nat} (h : a.testBit n = true) : a ||| (1 <<< n) = a := by
  apply Nat.eq_of_testBit_eq
  intro k
  rw [Nat.testBit_or, Nat.one_shiftLeft]
  rw [Nat.testBit_two_pow]
  by_cases e : n = k
  · subst e; simp [h]
  · simp [e]

theorem doCall_statI {s : S} {i : Nat} (c : Call) (hw : i ≤ s.sco.nextId) : stat ((doCall s i c).co i) = stat (callStat s i c (s.co i)) := by
  cases c
  case start => have : i ≠ s.sco.nextId + 1 := by omega
                simp [doCall, doStart, upd_co, callStat, this]; rfl
  case genStart => have : i ≠ s.sco.nextId + 1 := by omega
                   simp [doCall, doGenStart, doStart, upd_co, callStat, this]; rfl
  case setType a => simp [doCall, upd_co, callStat]
  case setState a => simp [doCall, upd_co, callStat]
  case cpush a => simp [doCall, upd_co, callStat]
  case cpop a =>
    simp only [doCall, doCpop]; (repeat' split) <;> simp_all [upd_co, callStat]; simp_all [stat]
  case sigWatch n =>
    simp only [doCall, doSigWatch, callStat]; (repeat' split)
    · simp
    · rename_i h; rw [stat_retv]; simp [stat, or_testBit h]
    · simp [upd_co]
  case sigUnwatch n =>
    simp only [doCall, doSigUnwatch, callStat]; (repeat' split) <;> simp_all [upd_co] <;> omega
  case chRetain c => simp only [doCall, callStat]; split <;> simp
  all_goals simp [doCall, callStat]

theorem tauCo_stat {s s' : S} {i j : Nat} (hs : tauCo s i = some s') : stat (s'.co j) = stat (s.co j) ∨
    (j = i ∧ ((∃ v, (s.co i).pc = .ret v ∧ stat (s'.co i) = stat { s.co i with call := .none }) ∨
      (∃ x q, (s.co i).pc = .exitRun true ∧ (s.co i).cleanup = x :: q ∧ stat (s'.co i) = stat { s.co i with cleanup := q }) ∨
      (∃ x y, (s.co i).pc = .go (.genRel x y) ∧ stat (s'.co i) = stat { s.co i with gen := none }))) := by
  unfold tauCo at hs
  split at hs
  · cases hs
  · cases hs
  · cases hs
  · rename_i v e
    cases hs
    unfold doRet; split
    · left; simp
    · by_cases hj : j = i
      · subst hj; right; exact ⟨rfl, .inl ⟨v, e, by simp [upd_co]; rfl⟩⟩
      · left; simp [upd_co, hj]
  · rename_i n a e
    left
    (repeat' split at hs) <;> cases hs <;> simp
  · cases hs; left; simp
  · rename_i a e
    cases hs
    cases a with
    | genRel x y =>
      simp only [doAft]; split
      · by_cases hj : j = i
        · subst hj; right; exact ⟨rfl, .inr (.inr ⟨x, y, e, by simp [upd_co]⟩)⟩
        · left; simp [upd_co, hj]
      · left; rfl
    | ret v => left; simp [doAft]
    | condEnq => left; simp only [doAft]; split <;> simp
    | exitTail x y => left; simp only [doAft]; split <;> simp
    | fin x => left; simp [doAft]
  · cases hs; left; simp
  · cases hs; left; simp
  · left; split at hs <;> cases hs <;> simp
  · left; split at hs <;> cases hs <;> simp
  · cases hs; left; simp
  · rename_i a e
    cases hs
    unfold doExit; split
    · rename_i ha; subst ha; split
      · rename_i x q hq
        by_cases hj : j = i
        · subst hj; right; exact ⟨rfl, .inr (.inl ⟨x, q, e, hq, by simp [upd_co]⟩)⟩
        · left; simp [upd_co, hj]
      · left; simp
    · left; simp

theorem tauMain_stat {s s' : S} {j : Nat} (hs : tauMain s = some s') : stat (s'.co j) = stat (s.co j) := by
  unfold tauMain at hs
  (repeat' split at hs) <;> cases hs <;> simp

theorem step_stat {s s' : S} {a : Act} (hw : Sco.WF s.sco) (hs : step s a = some s') (j : Nat) : StatStep s a j s' := by
  unfold step at hs
  split at hs
  · cases hs
  cases a with
  | call c =>
    simp only at hs
    split at hs
    · cases hs
    rename_i i hc
    split at hs <;> cases hs
    rename_i hp
    by_cases hj : j = i
    · subst hj
      refine .call c rfl hc hp.1 ?_
      refine (doCall_statI (s := upd (note s (.call j c)) j (fun k => { k with call := c })) c (cur_le hw hc).2).trans ?_
      have : (upd (note s (.call j c)) j (fun k => { k with call := c })).co j = { s.co j with call := c } := by simp [upd_co]
      rw [this]; rfl
    · by_cases hn : (c = .start ∨ c = .genStart) ∧ j = s.sco.nextId + 1
      · obtain ⟨h1, rfl⟩ := hn
        rcases h1 with rfl | rfl
        · refine .new i none (.inl ⟨rfl, rfl⟩) hc rfl ?_
          simp [doCall, doStart]; rfl
        · refine .new i (some s.nchan) (.inr ⟨rfl, rfl⟩) hc rfl ?_
          simp [doCall, doGenStart, doStart]; rfl
      · refine .same ?_ (fun _ _ e => hj (by rw [hc] at e; cases e; rfl))
        exact (doCall_statO (s := upd (note s (.call i c)) i (fun k => { k with call := c })) hj c (fun h e => hn ⟨h, e⟩)).trans (stat_updO hj)
  | finish =>
    simp only at hs
    split at hs
    · cases hs
    split at hs <;> cases hs
    exact .same (by simp) (by simp)
  | tau =>
    simp only at hs
    split at hs
    · rename_i i hc
      rcases tauCo_stat (j := j) hs with h | ⟨rfl, ⟨v, h1, h2⟩ | ⟨x, q, h1, h2, h3⟩ | ⟨x, y, h1, h2⟩⟩
      · exact .same h (by simp)
      · exact .ret v rfl hc h1 h2
      · exact .clean x q rfl hc h1 h2 h3
      · exact .genRel x y rfl hc h1 h2
    · exact .same (tauMain_stat hs) (by simp)
  | submit ok =>
    simp only at hs
    split at hs
    · cases hs
    (repeat' split at hs) <;> cases hs <;> exact .same (by simp) (by simp)
  | events evs =>
    simp only at hs
    split at hs
    · cases hs
      refine .same ?_ (by simp)
      dsimp only; split <;> simp
    · cases hs
  | clock t => simp only at hs; split at hs <;> cases hs; exact .same rfl (by simp)
  | signal n => simp only at hs; (repeat' split at hs) <;> cases hs <;> exact .same rfl (by simp)
  | wdone i => simp only at hs; split at hs <;> cases hs; exact .same rfl (by simp)

end Neco.Rt
