import Verif.Proof.RtLife
import Verif.Proof.RtEvid7
import Verif.Proof.RtAdds
/-!
# Where a coroutine can be inside a call, and what it can return
-/
namespace Neco.Rt
open Neco.Err

theorem pc_retv (s : S) (i : Nat) (v : Int) : ((retv s i v).co i).pc = .ret v := by simp [retv, setPc, upd_co]
theorem pc_setPc (s : S) (i : Nat) (p : Pc) : ((setPc s i p).co i).pc = p := by simp [setPc, upd_co]
theorem pc_coyield (s : S) (i n : Nat) (a : Aft) : ((coyield s i n a).co i).pc = .yck n a := by simp [coyield, setPc, upd_co]
theorem pc_yfsr (s : S) (i n : Nat) (a : Aft) : ∃ k, ((yfsr s i n a).co i).pc = .yck k a := ⟨_, by unfold yfsr; rw [pc_coyield]⟩
theorem pc_copause (s : S) (i : Nat) (dl : Int) (b : Blk) : ((copause s i dl b).co i).pc = .blk b := by
  unfold copause; split <;> simp [setPc, upd_co]
theorem pc_scoResume (s : S) (i k : Nat) : ((scoResume s k).co i).pc = (s.co i).pc := rfl
theorem pc_resumeOpt (s : S) (i : Nat) (k : Option Nat) : ((resumeOpt s k).co i).pc = (s.co i).pc := by
  unfold resumeOpt; split <;> rfl

/-- leaving for good -/
def Aft.exiting : Aft → Bool
  | .genRel _ _ | .exitTail _ _ | .fin _ => true
  | _ => false
def Pc.exiting : Pc → Bool
  | .exitRun _ | .dead => true
  | .yck _ a | .yld _ a | .go a => a.exiting
  | _ => false

def timed (v : Int) : Prop := v = OK ∨ v = TIMEDOUT ∨ v = CANCELED

/-- the calls that yield after their result is settled -/
def yields : Call → Bool
  | .yield | .bcast _ _ | .close _ | .unlock _ | .wgDone _ | .wgWait _ _ | .cvBcast _ | .cancel _ _ => true
  | _ => false
theorem yields_imm {c : Call} (h : yields c = true) : imm c = false := by cases c <;> first | rfl | cases h

/-- the record of a coroutine fits the call it is executing -/
def fits (k : Co) : Prop :=
  match k.pc with
  | .user => k.call = .none
  | .ret v => codes k.call v
  | .yck _ a | .yld _ a | .go a => match a with
    | .ret v => yields k.call = true ∧ codes k.call v
    | .condEnq => ∃ v m dl, k.call = .cvWait v m dl
    | _ => True
  | .selGot x _ _ => ∃ cs, selCs k.call = some cs ∧ x < cs.length
  | .blk .sel => ∃ cs dl, k.call = .select cs dl ∧ (k.retIdx = -1 ∨ (0 ≤ k.retIdx ∧ k.retIdx < cs.length))
  | .blk .relock => ∃ v m dl, k.call = .cvWait v m dl ∧ timed k.sav
  | .blk b => ∃ dl, BlkC b k.call dl
  | .cancelTry => ∃ t dl, k.call = .cancel t dl
  | .relock => ∃ v m dl, k.call = .cvWait v m dl ∧ timed k.sav
  | .workTry => k.call = .work
  | .workWait => k.call = .work
  | .exitRun _ => True
  | .dead => True

theorem timed_dlCode (s : S) (i : Nat) (dl : Int) : timed (dlCode s i dl) := by
  unfold dlCode timed; (repeat' split) <;> simp

theorem fits_ret {k : Co} {v : Int} (hp : k.pc = .ret v) (h : codes k.call v) : fits k := by unfold fits; rw [hp]; exact h
theorem fits_yck {k : Co} {v : Int} {n : Nat} (hp : k.pc = .yck n (.ret v)) (h : yields k.call = true) (h2 : codes k.call v) : fits k := by
  unfold fits; rw [hp]; exact ⟨h, h2⟩
theorem fits_exit {k : Co} (hp : k.pc.exiting = true) : fits k := by
  unfold fits; split <;> simp_all [Pc.exiting] <;> split <;> simp_all [Aft.exiting]

theorem chanSend_pc (s : S) (i c : Nat) (m : Msg) (dl : Int) (hf : (chanSend s i c m dl).fault = false) :
    ((chanSend s i c m dl).co i).pc = .blk .send ∨ ∃ v, ((chanSend s i c m dl).co i).pc = .ret v ∧ (v = OK ∨ v = CANCELED ∨ v = CLOSED) := by
  revert hf
  unfold chanSend
  split
  · intro h; simp at h
  · dsimp only
    intro _
    split
    · exact .inr ⟨_, pc_retv .., .inr (.inr rfl)⟩
    split
    · exact .inr ⟨_, pc_retv .., .inr (.inl rfl)⟩
    split
    · exact .inr ⟨_, by rw [pc_scoResume, pc_retv], .inl rfl⟩
    · unfold sendRest; split
      · exact .inr ⟨_, pc_retv .., .inl rfl⟩
      · exact .inl (pc_copause ..)

theorem chanRecv_pc (s : S) (i c : Nat) (t : Bool) (dl : Int) (hf : (chanRecv s i c t dl).fault = false) :
    (t = false ∧ ((chanRecv s i c t dl).co i).pc = .blk .recv) ∨ ∃ v, ((chanRecv s i c t dl).co i).pc = .ret v ∧ (v = OK ∨ v = CANCELED ∨ v = CLOSED ∨ (t = true ∧ v = EMPTY)) := by
  revert hf
  unfold chanRecv
  split
  · intro h; simp at h
  · intro _
    split
    · exact .inr ⟨_, pc_retv .., by simp⟩
    split
    · exact .inr ⟨_, pc_retv .., by simp⟩
    split
    · exact .inr ⟨_, by rw [pc_resumeOpt, pc_retv], by simp⟩
    · split
      · exact .inr ⟨_, pc_retv .., by simp_all⟩
      · exact .inl ⟨by simp_all, pc_copause ..⟩

theorem selScan_lt {s : S} {k : Nat} {cs : List Nat} {x c : Nat} (h : selScan s k cs = some (x, c)) : k ≤ x ∧ x < k + cs.length := by
  induction cs generalizing k with
  | nil => simp [selScan] at h
  | cons d cs ih =>
    unfold selScan at h
    split at h
    · have := ih h; simp only [List.length_cons]; omega
    · split at h
      · simp at h; simp only [List.length_cons]; omega
      · have := ih h; simp only [List.length_cons]; omega

theorem selPush_own (s : S) (i k : Nat) (cs : List Nat) : (selPush s i k cs).co = s.co := by
  induction cs generalizing s k with
  | nil => rfl
  | cons c cs ih => unfold selPush; rw [ih]; rfl

theorem copause_retIdx (s : S) (i j : Nat) (dl : Int) (b : Blk) : ((copause s i dl b).co j).retIdx = (s.co j).retIdx := by
  unfold copause; split <;> simp [setPc, upd_co] <;> split <;> simp_all

theorem chanSelect_pc (s : S) (i : Nat) (cs : List Nat) (dl : Int) (t : Bool) (hf : (chanSelect s i cs dl t).fault = false) :
    (t = false ∧ ((chanSelect s i cs dl t).co i).pc = .blk .sel ∧ ((chanSelect s i cs dl t).co i).retIdx = -1) ∨
    (∃ x c v, ((chanSelect s i cs dl t).co i).pc = .selGot x c v ∧ x < cs.length) ∨
    ((chanSelect s i cs dl t).co i).pc = .ret CANCELED ∨ (t = true ∧ ((chanSelect s i cs dl t).co i).pc = .ret EMPTY) := by
  revert hf
  unfold chanSelect
  split
  · intro h; simp at h
  split
  · intro _; exact .inr (.inr (.inl (pc_retv ..)))
  split
  · rename_i k c hsc
    have hk := selScan_lt hsc
    split
    · intro h; simp at h
    · split
      · intro _; exact .inr (.inl ⟨_, _, _, pc_setPc .., by omega⟩)
      · split
        · intro _; exact .inr (.inl ⟨_, _, _, by rw [pc_resumeOpt, pc_setPc], by omega⟩)
        · intro h; simp at h
  · intro _
    split
    · exact .inr (.inr (.inr ⟨by simp_all, pc_retv ..⟩))
    · refine .inl ⟨by simp_all, pc_copause .., ?_⟩
      rw [copause_retIdx]; simp [selPush_own, upd_co]

theorem doCall_call {s : S} {i : Nat} (c : Call) (hw : i ≤ s.sco.nextId) : ((doCall s i c).co i).call = (s.co i).call := by
  rw [stat_call (doCall_statI c hw), callStat_call]

/-- `fits` with the call given separately, and the promise that an immediate call is about to return -/
def fitsC (c : Call) (k : Co) : Prop := fits { k with call := c } ∧ (imm c = true → ∃ v, k.pc = .ret v)

theorem fR {c : Call} {k : Co} (v : Int) (h1 : k.pc = .ret v) (h2 : codes c v) : fitsC c k := ⟨fits_ret h1 h2, fun _ => ⟨v, h1⟩⟩
theorem fY {c : Call} {k : Co} (n : Nat) (v : Int) (h1 : k.pc = .yck n (.ret v)) (h2 : yields c = true) (h3 : codes c v) : fitsC c k :=
  ⟨fits_yck h1 h2 h3, fun h => by rw [yields_imm h2] at h; cases h⟩
theorem fG {c : Call} {k : Co} (v : Int) (h1 : k.pc = .go (.ret v)) (h2 : yields c = true) (h3 : codes c v) : fitsC c k :=
  ⟨by unfold fits; rw [h1]; exact ⟨h2, h3⟩, fun h => by rw [yields_imm h2] at h; cases h⟩
theorem fB {c : Call} {k : Co} (b : Blk) (dl : Int) (h1 : k.pc = .blk b) (h2 : b ≠ .sel) (h4 : b ≠ .relock) (h3 : imm c = false) (h5 : BlkC b c dl) : fitsC c k := by
  refine ⟨?_, fun h => by rw [h3] at h; cases h⟩
  unfold fits; simp only [h1]
  cases b <;> simp at h2 h4 <;> exact ⟨dl, h5⟩
theorem fO {c : Call} {k : Co} (h : fits { k with call := c }) (h3 : imm c = false) : fitsC c k := ⟨h, fun h => by rw [h3] at h; cases h⟩

theorem doCall_fitsC {s : S} {i : Nat} {c : Call} (hw : i ≤ s.sco.nextId) (hn : c ≠ .none)
    (hf : (doCall s i c).fault = false) : fitsC c ((doCall s i c).co i) := by
  cases c
  case none => exact absurd rfl hn
  case start =>
    have : i ≠ s.sco.nextId + 1 := by omega
    exact fR OK (by simp [doCall, doStart, upd_co, this]) rfl
  case genStart =>
    have : i ≠ s.sco.nextId + 1 := by omega
    exact fR OK (by simp [doCall, doGenStart, doStart, upd_co, this]) rfl
  case yield => exact fY _ _ (pc_coyield ..) rfl rfl
  case sleep dl =>
    by_cases h : s.clock > dl
    · exact fR TIMEDOUT (by simp only [doCall, doSleep, if_pos h]; exact pc_retv ..) (by simp [codes])
    · exact fB .sleep dl (by simp only [doCall, doSleep, if_neg h]; exact pc_copause ..) (by simp) (by simp) rfl rfl
  case join id dl =>
    have hd := timed_dlCode s i dl
    by_cases h : id ∉ s.all
    · exact fR OK (by simp only [doCall, doJoin, if_pos h]; exact pc_retv ..) (by simp [codes])
    by_cases h1 : dlCode s i dl ≠ OK
    · exact fR (dlCode s i dl) (by simp only [doCall, doJoin, if_neg h, if_pos h1]; exact pc_retv ..) (by unfold timed at hd; simp only [codes]; omega)
    by_cases h2 : id = i
    · exact fR PERM (by simp only [doCall, doJoin, if_neg h, if_neg h1, if_pos h2]; exact pc_retv ..) (by simp [codes])
    · exact fB .join dl (by simp only [doCall, doJoin, if_neg h, if_neg h1, if_neg h2]; exact pc_copause ..) (by simp) (by simp) rfl ⟨_, rfl⟩
  case suspend dl => exact fB .susp dl (pc_copause ..) (by simp) (by simp) rfl rfl
  case resume id =>
    by_cases h : id ∉ s.all
    · exact fR NOTFOUND (by simp only [doCall, doResume, if_pos h]; exact pc_retv ..) (by simp [codes])
    by_cases h1 : (s.co id).suspended = false
    · exact fR NOTSUSPENDED (by simp only [doCall, doResume, if_neg h, if_pos h1]; exact pc_retv ..) (by simp [codes])
    · exact fR OK (by simp only [doCall, doResume, if_neg h, if_neg h1]; exact pc_retv ..) (by simp [codes])
  case exit => exact fO (fits_exit (show Pc.exiting ((doCall s i .exit).co i).pc = true by rw [show ((doCall s i .exit).co i).pc = _ from pc_setPc ..]; rfl)) rfl
  case getid => exact fR _ (pc_retv ..) (by simp [codes])
  case lastid => exact fR _ (pc_retv ..) (by simp [codes])
  case starterid => exact fR _ (pc_retv ..) (by simp [codes])
  case stats => exact fR _ (pc_retv ..) rfl
  case chMake cap => exact fR _ (pc_retv ..) (by simp [codes])
  case chRetain k =>
    revert hf
    simp only [doCall]
    split
    · intro hf; simp at hf
    · intro _; exact fR _ (pc_retv ..) rfl
  case chRelease k => exact fR _ (pc_retv ..) rfl
  case send k m dl =>
    rcases chanSend_pc s i k m dl hf with h | ⟨v, h, h2⟩
    · exact fB .send dl h (by simp) (by simp) rfl (.inl ⟨_, _, rfl⟩)
    · exact fR v h (by simp only [codes]; omega)
  case bcast k m =>
    revert hf
    simp only [doCall, chanBcast]
    split
    · intro hf; simp at hf
    split
    · intro _; exact fR _ (pc_retv ..) (by simp [codes])
    · intro _; exact fY _ _ (pc_yfsr ..).choose_spec rfl (by simp [codes])
  case recv k dl =>
    rcases chanRecv_pc s i k false dl hf with ⟨_, h⟩ | ⟨v, h, h2⟩
    · exact fB .recv dl h (by simp) (by simp) rfl ⟨_, rfl⟩
    · exact fR v h (by simp only [codes]; simp at h2; omega)
  case tryrecv k =>
    rcases chanRecv_pc s i k true MAX hf with ⟨h, _⟩ | ⟨v, h, h2⟩
    · cases h
    · exact fR v h (by simp only [codes]; simp at h2; omega)
  case close k =>
    revert hf
    simp only [doCall, chanClose]
    split
    · intro hf; simp at hf
    intro _
    split
    · exact fR _ (pc_retv ..) (by simp [codes])
    · unfold chanClose1; dsimp only
      split
      · exact fG _ (pc_setPc ..) rfl (by simp [codes])
      · exact fY _ _ (pc_yfsr ..).choose_spec rfl (by simp [codes])
  case select cs dl =>
    rcases chanSelect_pc s i cs dl false hf with ⟨_, h, h2⟩ | ⟨x, c, v, h, h2⟩ | h | ⟨h, _⟩
    · refine fO ?_ rfl
      unfold fits; simp only [doCall, h]; exact ⟨cs, dl, rfl, .inl h2⟩
    · refine fO ?_ rfl
      unfold fits; simp only [doCall, h]; exact ⟨cs, rfl, h2⟩
    · exact fR _ h (by simp [codes])
    · cases h
  case tryselect cs =>
    rcases chanSelect_pc s i cs MAX true hf with ⟨h, _⟩ | ⟨x, c, v, h, h2⟩ | h | ⟨_, h⟩
    · cases h
    · refine fO ?_ rfl
      unfold fits; simp only [doCall, h]; exact ⟨cs, rfl, h2⟩
    · exact fR _ h (by simp [codes])
    · exact fR _ h (by simp [codes])
  case chCase k =>
    revert hf
    simp only [doCall, chanCase]
    split
    · intro hf; simp at hf
    split
    · intro _; exact fR _ (pc_retv ..) (by simp [codes])
    · intro _; exact fR _ (pc_retv ..) (by simp [codes])
  case genYield m dl =>
    revert hf
    simp only [doCall, doGenYield]
    split
    · intro _; exact fR _ (pc_retv ..) (by simp [codes])
    · rename_i k hk
      intro hf
      rcases chanSend_pc s i k m dl hf with h | ⟨v, h, h2⟩
      · exact fB .send dl h (by simp) (by simp) rfl (.inr ⟨_, rfl⟩)
      · exact fR v h (by simp only [codes]; omega)
  case lock m dl =>
    have hd := timed_dlCode s i dl
    by_cases h1 : dlCode s i dl ≠ OK
    · exact fR (dlCode s i dl) (by simp only [doCall, muLock, if_pos h1]; exact pc_retv ..) hd
    by_cases h2 : ((dlClear s i).mu m).locked = true
    · exact fB (.lock false) dl (by simp only [doCall, muLock, if_neg h1, if_pos h2]; exact pc_copause ..) (by simp) (by simp) rfl ⟨_, rfl⟩
    · exact fR OK (by simp only [doCall, muLock, if_neg h1, if_neg h2]; exact pc_retv ..) (by simp [codes])
  case rdlock m dl =>
    have hd := timed_dlCode s i dl
    by_cases h1 : dlCode s i dl ≠ OK
    · exact fR (dlCode s i dl) (by simp only [doCall, muRdlock, if_pos h1]; exact pc_retv ..) hd
    by_cases h2 : rdBusy (dlClear s i) m = true
    · exact fB (.lock true) dl (by simp only [doCall, muRdlock, if_neg h1, if_pos h2]; exact pc_copause ..) (by simp) (by simp) rfl ⟨_, rfl⟩
    · exact fR OK (by simp only [doCall, muRdlock, if_neg h1, if_neg h2]; exact pc_retv ..) (by simp [codes])
  case trylock m =>
    simp only [doCall, muTrylock]
    split <;> (exact fR _ (pc_retv ..) (by simp [codes]))
  case tryrdlock m =>
    simp only [doCall, muTryrdlock]
    split <;> (exact fR _ (pc_retv ..) (by simp [codes]))
  case unlock m =>
    simp only [doCall, muUnlock]
    split
    · exact fY _ _ (pc_yfsr ..).choose_spec rfl rfl
    · exact fY _ _ (pc_coyield ..) rfl rfl
  case wgAdd w d =>
    revert hf
    simp only [doCall, wgAdd]
    split
    · intro hf; simp at hf
    split <;> (intro _; exact fR _ (pc_retv ..) (by simp [codes]))
  case wgDone w =>
    simp only [doCall, wgDone]
    split
    · exact fR _ (pc_retv ..) (by simp [codes])
    split
    · split
      · exact fR _ (pc_retv ..) (by simp [codes])
      · exact fR _ (by rw [pc_scoResume, pc_retv]) (by simp [codes])
      · exact fY _ _ (pc_yfsr ..).choose_spec rfl (by simp [codes])
    · exact fR _ (pc_retv ..) (by simp [codes])
  case wgWait w dl =>
    have hd := timed_dlCode s i dl
    by_cases h1 : dlCode s i dl ≠ OK
    · exact fR (dlCode s i dl) (by simp only [doCall, wgWait, if_pos h1]; exact pc_retv ..) hd
    by_cases h2 : (dlClear s i).wg w = 0
    · exact fY _ _ (by simp only [doCall, wgWait, if_neg h1, if_pos h2]; exact pc_coyield ..) rfl (by simp [codes])
    · exact fB .wg dl (by simp only [doCall, wgWait, if_neg h1, if_neg h2]; exact pc_copause ..) (by simp) (by simp) rfl ⟨_, rfl⟩
  case cvSignal v =>
    simp only [doCall, cvSignal]
    split
    · exact fR _ (pc_retv ..) (by simp [codes])
    · exact fR _ (by rw [pc_scoResume, pc_retv]) (by simp [codes])
  case cvBcast v =>
    exact fY _ _ (pc_yfsr ..).choose_spec rfl rfl
  case cvWait v m dl =>
    by_cases h1 : (s.co i).canceled = true
    · exact fR _ (by simp only [doCall, cvWait, if_pos h1]; exact pc_retv ..) (by simp [codes])
    by_cases h2 : unlockHands s m = true
    · refine fO ?_ rfl
      obtain ⟨n, hn⟩ := pc_yfsr (fastUnlock (note s (.release m i)) m) i 0 .condEnq
      have : ((doCall s i (.cvWait v m dl)).co i).pc = .yck n .condEnq := by
        simp only [doCall, cvWait, if_neg h1, if_pos h2]; exact hn
      unfold fits; simp only [this]; exact ⟨v, m, dl, rfl⟩
    · exact fB .cond dl (by simp only [doCall, cvWait, if_neg h1, if_neg h2]; exact pc_copause ..) (by simp) (by simp) rfl ⟨_, _, rfl⟩
  case cancel id dl =>
    refine fO ?_ rfl
    have : ((doCall s i (.cancel id dl)).co i).pc = .cancelTry := pc_setPc ..
    unfold fits; simp only [this]; exact ⟨id, dl, rfl⟩
  case setType a => exact fR _ (pc_retv ..) rfl
  case setState a => exact fR _ (pc_retv ..) rfl
  case cpush a => exact fR _ (pc_retv ..) rfl
  case cpop e =>
    revert hf
    simp only [doCall, doCpop]
    split
    · intro hf; simp at hf
    · intro _; exact fR _ (pc_retv ..) rfl
  case sigWatch n =>
    simp only [doCall, doSigWatch]
    (repeat' split) <;> (exact fR _ (pc_retv ..) (by simp [codes]))
  case sigUnwatch n =>
    simp only [doCall, doSigUnwatch]
    (repeat' split) <;> (exact fR _ (pc_retv ..) (by simp [codes]))
  case sigWait dl =>
    by_cases h1 : (s.co i).sigwatch = 0
    · exact fR _ (by simp only [doCall, doSigWait, if_pos h1]; exact pc_retv ..) (by simp [codes])
    by_cases h2 : (s.co i).canceled = true
    · exact fR _ (by simp only [doCall, doSigWait, if_neg h1, if_pos h2]; exact pc_retv ..) (by simp [codes])
    · exact fB .sig dl (by simp only [doCall, doSigWait, if_neg h1, if_neg h2]; exact pc_copause ..) (by simp) (by simp) rfl rfl
  case wait fd w dl => exact fB .wait dl (pc_copause ..) (by simp) (by simp) rfl ⟨_, _, rfl⟩
  case work =>
    refine fO ?_ rfl
    have : ((doCall s i .work).co i).pc = .workTry := pc_setPc ..
    unfold fits; simp only [this]

/-- right after a call up to its first context switch -/
theorem doCall_fits {s : S} {i : Nat} {c : Call} (hw : i ≤ s.sco.nextId) (hc : (s.co i).call = c) (hn : c ≠ .none)
    (hf : (doCall s i c).fault = false) : fits ((doCall s i c).co i) ∧ (imm c = true → ∃ v, ((doCall s i c).co i).pc = .ret v) := by
  have h := doCall_fitsC hw hn hf
  have hcl := doCall_call c hw
  rw [hc] at hcl
  have e : ∀ k : Co, k.call = c → { k with call := c } = k := fun k hk => by subst hk; rfl
  unfold fitsC at h; rw [e _ hcl] at h; exact h

theorem afterBlk_fits {s : S} {i : Nat} {b : Blk} (hp : (s.co i).pc = .blk b) (h : fits (s.co i)) : fits ((afterBlk s i b).co i) ∧ (imm (s.co i).call = false) := by
  have hcl : ((afterBlk s i b).co i).call = (s.co i).call := stat_call (stat_afterBlk s i i b)
  have hco : ∀ v, timed v → (b ≠ .sel → b ≠ .cancel → b ≠ .cond → b ≠ .relock → codes (s.co i).call v) := by
    intro v hv h1 h2 h3 h4
    unfold fits at h; rw [hp] at h
    unfold timed at hv
    cases b <;> simp at h h1 h2 h3 h4
    case sleep => obtain ⟨dl, h⟩ := h; simp only [BlkC] at h; rw [h]; exact hv
    case send => obtain ⟨dl, ⟨k, m, h⟩ | ⟨m, h⟩⟩ := h <;> rw [h] <;> simp only [codes] <;> omega
    case recv => obtain ⟨dl, k, h⟩ := h; rw [h]; simp only [codes]; omega
    case lock rd => obtain ⟨dl, h⟩ := h; cases rd <;> (obtain ⟨m, h⟩ := h; rw [h]; exact hv)
    case wg => obtain ⟨dl, w, h⟩ := h; rw [h]; exact hv
    case join => obtain ⟨dl, w, h⟩ := h; rw [h]; simp only [codes]; omega
    case susp => obtain ⟨dl, h⟩ := h; simp only [BlkC] at h; rw [h]; exact hv
    case sig => obtain ⟨dl, h⟩ := h; simp only [BlkC] at h; rw [h]; simp only [codes]; simp [OK] at hv; omega
    case wait => obtain ⟨dl, fd, w, h⟩ := h; rw [h]; exact hv
  have himm : imm (s.co i).call = false := by
    unfold fits at h; rw [hp] at h
    cases b <;> simp at h
    case sleep => obtain ⟨dl, h⟩ := h; simp only [BlkC] at h; rw [h]; rfl
    case send => obtain ⟨dl, ⟨k, m, h⟩ | ⟨m, h⟩⟩ := h <;> rw [h] <;> rfl
    case recv => obtain ⟨dl, k, h⟩ := h; rw [h]; rfl
    case sel => obtain ⟨cs, ⟨dl, h⟩, _⟩ := h; rw [h]; rfl
    case lock rd => obtain ⟨dl, h⟩ := h; cases rd <;> (obtain ⟨m, h⟩ := h; rw [h]; rfl)
    case relock => obtain ⟨⟨v, m, dl, h⟩, _⟩ := h; rw [h]; rfl
    case wg => obtain ⟨dl, w, h⟩ := h; rw [h]; rfl
    case cond => obtain ⟨dl, w, m, h⟩ := h; rw [h]; rfl
    case join => obtain ⟨dl, w, h⟩ := h; rw [h]; rfl
    case cancel => obtain ⟨dl, w, h⟩ := h; rw [h]; rfl
    case susp => obtain ⟨dl, h⟩ := h; simp only [BlkC] at h; rw [h]; rfl
    case sig => obtain ⟨dl, h⟩ := h; simp only [BlkC] at h; rw [h]; rfl
    case wait => obtain ⟨dl, fd, w, h⟩ := h; rw [h]; rfl
  refine ⟨?_, himm⟩
  have hret : ∀ v, ((afterBlk s i b).co i).pc = .ret v → codes (s.co i).call v → fits ((afterBlk s i b).co i) :=
    fun v h1 h2 => fits_ret h1 (by rw [hcl]; exact h2)
  cases b
  case sleep =>
    refine hret _ (pc_retv ..) (hco _ ?_ (by simp) (by simp) (by simp) (by simp))
    unfold timed; split <;> simp
  case send => exact hret _ (pc_retv ..) (hco _ (timed_dlCode ..) (by simp) (by simp) (by simp) (by simp))
  case recv =>
    have hc2 : codes (s.co i).call CLOSED := by
      unfold fits at h; rw [hp] at h; obtain ⟨dl, k, h⟩ := h; rw [h]; simp [codes]
    revert hret
    simp only [afterBlk]
    split
    · intro hret; exact hret _ (pc_retv ..) (hco _ (timed_dlCode ..) (by simp) (by simp) (by simp) (by simp))
    split
    · intro hret; exact hret _ (pc_retv ..) hc2
    · intro hret; exact hret _ (pc_retv ..) (hco _ (.inl rfl) (by simp) (by simp) (by simp) (by simp))
  case sel =>
    unfold fits at h; rw [hp] at h
    obtain ⟨cs, dl, h1, h2⟩ := h
    refine hret _ (pc_retv ..) ?_
    rw [h1]; simp only [codes, selRm_co]
    have := timed_dlCode (selRm { s with nreceivers := s.nreceivers - 1 } i) i MAX
    unfold timed at this
    split
    · simp only [ERROR]; omega
    · omega
  case lock rd => exact hret _ (pc_retv ..) (hco _ (timed_dlCode ..) (by simp) (by simp) (by simp) (by simp))
  case relock =>
    unfold fits at h; rw [hp] at h
    obtain ⟨v, m, dl, h1, h2⟩ := h
    have hs : ∀ p t, ((setPc (dlClear (upd (rm t (.co i)) i (fun k => { k with rlocked := false })) i) i p).co i).sav = (t.co i).sav := by
      intro p t; simp [setPc, dlClear, upd_co]
    revert hret hcl
    simp only [afterBlk]
    split
    · intro hcl hret
      refine hret _ (pc_retv ..) ?_
      rw [h1]; simp only [codes, upd_co, if_true, rm_co]; exact h2
    split
    · intro _ _; exact fits_exit (by rw [pc_setPc]; rfl)
    · intro hcl _
      unfold fits; rw [pc_setPc]; exact ⟨v, m, dl, by rw [hcl, h1], by rw [hs]; exact h2⟩
  case wg => exact hret _ (pc_retv ..) (hco _ (timed_dlCode ..) (by simp) (by simp) (by simp) (by simp))
  case cond =>
    unfold fits at h; rw [hp] at h
    obtain ⟨dl, v, m, h1⟩ := h
    revert hcl; simp only [afterBlk]; intro hcl
    unfold fits; rw [pc_setPc]
    refine ⟨v, m, dl, by rw [hcl, h1], ?_⟩
    simp only [setPc, upd_co, if_true]; exact timed_dlCode ..
  case join => exact hret _ (pc_retv ..) (hco _ (timed_dlCode ..) (by simp) (by simp) (by simp) (by simp))
  case cancel =>
    unfold fits at h; rw [hp] at h
    obtain ⟨dl, t, h1⟩ := h
    revert hcl; simp only [afterBlk]; intro hcl
    unfold fits; rw [pc_setPc]; exact ⟨t, dl, by rw [hcl, h1]⟩
  case susp => exact hret _ (pc_retv ..) (hco _ (timed_dlCode ..) (by simp) (by simp) (by simp) (by simp))
  case sig =>
    refine hret _ (pc_retv ..) ?_
    split
    · unfold fits at h; rw [hp] at h; obtain ⟨dl, h⟩ := h; simp only [BlkC] at h; rw [h]; simp only [codes]; omega
    · exact hco _ (timed_dlCode ..) (by simp) (by simp) (by simp) (by simp)
  case wait => exact hret _ (pc_retv ..) (hco _ (timed_dlCode ..) (by simp) (by simp) (by simp) (by simp))

/-- the exit path is not left -/
theorem tauCo_exiting {s s' : S} {i : Nat} (hs : tauCo s i = some s') (h : (s.co i).pc.exiting = true) : ((s'.co i).pc.exiting = true) := by
  unfold tauCo at hs
  split at hs <;> rename_i e <;> rw [e] at h <;> simp only [Pc.exiting] at h <;> try (cases h; done)
  · cases hs
  · (repeat' split at hs) <;> cases hs
    · rw [pc_setPc]; rfl
    · rw [pc_setPc]; exact h
    · rw [pc_coyield]; exact h
  · cases hs; rw [pc_coyield]; exact h
  · cases hs
    rename_i a
    cases a <;> simp only [Aft.exiting] at h <;> try (cases h; done)
    · simp only [doAft]; split
      · rw [pc_setPc]; rfl
      · simp only [e]; rfl
    · simp only [doAft]; split
      · rw [(pc_yfsr ..).choose_spec]; rfl
      · rw [pc_setPc]; rfl
    · simp only [doAft, doFin]; rw [pc_setPc]; rfl
  · cases hs
    rename_i a
    have hx : (exitNotify s i a).co i = (exitNotify s i a).co i := rfl
    have : ((exitNotify s i a).co i).pc.exiting = true := by
      unfold exitNotify; dsimp only
      (repeat' split)
      · rw [pc_setPc]; rfl
      · simp [e]; rfl
      · rw [pc_setPc]; rfl
      · unfold chanClose1; dsimp only; split
        · rw [pc_setPc]; rfl
        · rw [(pc_yfsr ..).choose_spec]; rfl
    unfold doExit; split
    · split
      · simp [upd_co, e]; rfl
      · exact this
    · exact this

theorem unpause_fits {s : S} {i : Nat} (h : fits (s.co i)) : fits ((unpause s i).co i) := by
  unfold unpause; split
  · simp only [upd_co, if_true]; unfold fits at h ⊢; simpa using h
  · exact h
theorem pc_unpause (s : S) (i : Nat) : ((unpause s i).co i).pc = (s.co i).pc ∧ ((unpause s i).co i).call = (s.co i).call := by
  unfold unpause; split <;> simp [upd_co]

theorem tauCo_fits {s s' : S} {i : Nat} (hf : s'.fault = false) (hs : tauCo s i = some s') (h : fits (s.co i)) : fits (s'.co i) := by
  by_cases hx : (s.co i).pc.exiting = true
  · exact fits_exit (tauCo_exiting hs hx)
  have hst := tauCo_stat (j := i) hs
  unfold tauCo at hs
  split at hs <;> rename_i e <;> rw [e] at hst
  · cases hs
  · cases hs
  · cases hs
  · rename_i v
    cases hs; unfold doRet; split
    · exact fits_exit (by rw [pc_setPc]; rfl)
    · unfold fits; simp [upd_co]
  · rename_i n a
    have hcl : (s'.co i).call = (s.co i).call := by
      rcases hst with h | ⟨_, ⟨_, h, _⟩ | ⟨_, _, h, _⟩ | ⟨_, _, h, _⟩⟩ <;> first | exact stat_call h | cases h
    unfold fits at h; rw [e] at h
    (repeat' split at hs) <;> cases hs
    · exact fits_exit (by rw [pc_setPc]; rfl)
    · unfold fits; rw [pc_setPc, hcl]; exact h
    · unfold fits; rw [pc_coyield, hcl]; exact h
  · rename_i n a
    have hcl : (s'.co i).call = (s.co i).call := by
      rcases hst with h | ⟨_, ⟨_, h, _⟩ | ⟨_, _, h, _⟩ | ⟨_, _, h, _⟩⟩ <;> first | exact stat_call h | cases h
    unfold fits at h; rw [e] at h
    cases hs
    unfold fits; rw [pc_coyield, hcl]; exact h
  · rename_i a
    rw [e] at hx
    unfold fits at h; rw [e] at h
    cases a with
    | ret v =>
      have hcl : (s'.co i).call = (s.co i).call := by
        rcases hst with h | ⟨_, ⟨_, h, _⟩ | ⟨_, _, h, _⟩ | ⟨_, _, h, _⟩⟩ <;> first | exact stat_call h | cases h
      cases hs; exact fits_ret (pc_retv ..) (by rw [hcl]; exact h.2)
    | condEnq =>
      have hcl : (s'.co i).call = (s.co i).call := by
        rcases hst with h | ⟨_, ⟨_, h, _⟩ | ⟨_, _, h, _⟩ | ⟨_, _, h, _⟩⟩ <;> first | exact stat_call h | cases h
      obtain ⟨v, m, dl, h⟩ := h
      cases hs
      rw [h] at hcl
      revert hcl; simp only [doAft, h]; intro hcl
      unfold fits; rw [show ((cvEnq s i v dl).co i).pc = .blk .cond from pc_copause ..]
      exact ⟨dl, v, m, hcl⟩
    | _ => simp [Pc.exiting, Aft.exiting] at hx
  · rename_i x c v
    have hcl : (s'.co i).call = (s.co i).call := by
      rcases hst with h | ⟨_, ⟨_, h, _⟩ | ⟨_, _, h, _⟩ | ⟨_, _, h, _⟩⟩ <;> first | exact stat_call h | cases h
    unfold fits at h; rw [e] at h
    obtain ⟨cs, h1, h2⟩ := h
    cases hs
    refine fits_ret (pc_retv ..) ?_
    rw [hcl]
    unfold selCs at h1; split at h1 <;> rename_i hc <;> simp at h1 <;> subst h1 <;> rw [hc] <;> simp only [codes] <;> omega
  · rename_i b
    cases hs
    have hp2 := pc_unpause s i
    exact (afterBlk_fits (by rw [preBlk_co, hp2.1]; exact e) (by rw [preBlk_co]; exact unpause_fits h)).1
  · have hcl : (s'.co i).call = (s.co i).call := by
      rcases hst with h | ⟨_, ⟨_, h, _⟩ | ⟨_, _, h, _⟩ | ⟨_, _, h, _⟩⟩ <;> first | exact stat_call h | cases h
    split at hs <;> cases hs
    · rename_i id dl hc
      rw [hc] at hcl
      have hd := timed_dlCode s i dl
      unfold timed at hd
      revert hcl; unfold doCancel; dsimp only
      (repeat' split) <;> intro hcl
      · exact fits_ret (pc_retv ..) (by rw [hcl]; simp [codes])
      · exact fits_ret (pc_retv ..) (by rw [hcl]; simp only [codes]; omega)
      · unfold fits; rw [pc_scoResume, pc_setPc]; dsimp only; rw [hcl]; exact ⟨rfl, by simp [codes]⟩
      · unfold fits; rw [pc_copause]; exact ⟨dl, id, hcl⟩
    · simp at hf
  · have hcl : (s'.co i).call = (s.co i).call := by
      rcases hst with h | ⟨_, ⟨_, h, _⟩ | ⟨_, _, h, _⟩ | ⟨_, _, h, _⟩⟩ <;> first | exact stat_call h | cases h
    unfold fits at h; rw [e] at h
    obtain ⟨q, m0, dl0, hcv, hsv⟩ := h
    split at hs <;> cases hs
    · rename_i v m dl hc
      rw [hc] at hcl
      revert hcl; unfold doRelock
      (repeat' split) <;> intro hcl
      · exact fits_ret (pc_retv ..) (by rw [hcl]; exact hsv)
      · exact fits_exit (by rw [pc_setPc]; rfl)
      · unfold fits; rw [pc_setPc]; exact ⟨v, m, dl, hcl, by simpa [setPc, dlClear, upd_co] using hsv⟩
      · have hsv2 : ((finishLock (dlClear s i) i m false MAX .relock).co i).sav = (s.co i).sav := by
          unfold finishLock copause; split <;> simp [setPc, dlClear, upd_co]
        unfold fits; rw [show ((finishLock (dlClear s i) i m false MAX .relock).co i).pc = .blk .relock from pc_copause ..]
        exact ⟨v, m, dl, hcl, by rw [hsv2]; exact hsv⟩
    · simp at hf
  · have hcl : (s'.co i).call = (s.co i).call := by
      rcases hst with h | ⟨_, ⟨_, h, _⟩ | ⟨_, _, h, _⟩ | ⟨_, _, h, _⟩⟩ <;> first | exact stat_call h | cases h
    unfold fits at h; rw [e] at h
    cases hs
    exact fits_ret (pc_retv ..) (by rw [hcl, h]; simp [codes])
  · rw [e] at hx; simp [Pc.exiting] at hx

theorem fits_mv {j : Nat} {s t : S} (m : Mv j s t) (h : fits (s.co j)) : fits (t.co j) := by
  cases m
  case wdone co _ _ _ _ _ _ _ => rw [co]; exact h
  case takeCase c m k hn hp hc hr d =>
    obtain ⟨cs, dl, h1, h2⟩ := hc
    have := (List.getElem?_eq_some_iff.mp h2).1
    rw [d.co]; unfold fits; simp only [hp]; exact ⟨cs, dl, h1, .inr ⟨by omega, by omega⟩⟩
  case bcastCase c m k hn hp hc hr d =>
    obtain ⟨cs, dl, h1, h2⟩ := hc
    have := (List.getElem?_eq_some_iff.mp h2).1
    rw [d.co]; unfold fits; simp only [hp]; exact ⟨cs, dl, h1, .inr ⟨by omega, by omega⟩⟩
  case closeCase c k hn hp hc hr d =>
    obtain ⟨cs, dl, h1, h2⟩ := hc
    have := (List.getElem?_eq_some_iff.mp h2).1
    rw [d.co]; unfold fits; simp only [hp]; exact ⟨cs, dl, h1, .inr ⟨by omega, by omega⟩⟩
  all_goals (rename_i d; rw [d.co]; exact h)

theorem fits_mvs {j : Nat} {s t : S} (m : Mvs j s t) (h : fits (s.co j)) : fits (t.co j) := by
  induction m with
  | refl => exact h
  | head a _ ih => exact ih (fits_mv a h)

/-- the values a coroutine not waiting keeps -/
theorem Mvs.rdat {j : Nat} {s t : S} (m : Mvs j s t) {v : Int} (hp : (s.co j).pc = .ret v) : (t.co j).rdat = (s.co j).rdat := by
  induction m with
  | refl => rfl
  | head a g ih =>
    have h1 := (Mvs.one a).pc.1
    rw [ih (h1.trans hp)]
    cases a
    case wdone co _ _ _ _ _ _ _ => rw [co]
    case take h _ _ => rw [hp] at h; cases h
    case bcast h _ _ => rw [hp] at h; cases h
    all_goals (rename_i d; rw [d.co]; try rfl)

structure InvN (ok : S → Act → Prop) (j : Nat) (s : S) : Prop where
  ft : fits (s.co j)
  nw : imm (s.co j).call = true → (s.co j).pc.exiting = true ∨ ∃ v s0 s1 es, (s.co j).pc = .ret v ∧ Reach ok s0 ∧ s0.sco.cur = some j ∧
    Rt.step s0 (.call (s.co j).call) = some s1 ∧ (s1.co j).pc = .ret v ∧ (s1.co j).rdat = (s.co j).rdat ∧
    s.log = es ++ s1.log ∧ ∀ e ∈ es, isCallOf j e = false

/-- a step of which `j` is not the author adds no call of `j` -/
theorem step_noCall {s s' : S} {a : Act} {j : Nat} (hs : step s a = some s') (hn : ∀ c, a = .call c → s.sco.cur ≠ some j) :
    ∃ es, s'.log = es ++ s.log ∧ ∀ e ∈ es, isCallOf j e = false := by
  cases a with
  | call c =>
    unfold step at hs
    split at hs
    · cases hs
    simp only at hs
    split at hs
    · cases hs
    rename_i i hc
    split at hs <;> cases hs
    obtain ⟨es, h1, h2⟩ := doCall_adds (upd (note s (.call i c)) i (fun k => { k with call := c })) i c
    refine ⟨es ++ [.call i c], by rw [h1]; simp [note], ?_⟩
    intro e he
    rcases List.mem_append.mp he with he | he
    · have := h2 e he
      cases e <;> try rfl
      cases c <;> simp [callKinds, Ev.kind] at this
    · simp at he; subst he
      simp only [isCallOf, beq_eq_false_iff_ne]; intro e
      exact hn c rfl (by rw [hc, e])
  | _ =>
    obtain ⟨es, h1, h2⟩ := step_adds hs
    refine ⟨es, h1, fun e he => ?_⟩
    have := h2 e he
    cases e <;> try rfl
    revert this
    simp only [Ev.kind, stepKinds]
    (repeat' split) <;> (try unfold pcKinds) <;> (try unfold mainKinds) <;> (try split) <;> simp

theorem InvN.step {ok} {s s' : S} {a : Act} {j : Nat} (h : InvN ok j s) (r : Reach ok s) (hok : ok s a) (hf : s'.fault = false) (hs : Rt.step s a = some s') : InvN ok j s' := by
  have hw := reach_scoWF r
  by_cases hj : s.sco.cur = some j
  · by_cases hc : ∃ c, a = .call c
    · obtain ⟨c, rfl⟩ := hc
      have hs0 := hs
      unfold Rt.step at hs
      split at hs
      · cases hs
      simp only [hj] at hs
      split at hs <;> cases hs
      rename_i hp
      have hle := (cur_le hw hj).2
      have hcl := doCall_call (s := upd (note s (.call j c)) j (fun k => { k with call := c })) (i := j) c hle
      have hcl2 : ((upd (note s (.call j c)) j (fun k => { k with call := c })).co j).call = c := by simp [upd_co]
      obtain ⟨h1, h2⟩ := doCall_fits (s := upd (note s (.call j c)) j (fun k => { k with call := c })) hle hcl2 hp.2 hf
      refine ⟨h1, fun hi => .inr ?_⟩
      rw [hcl, hcl2] at hi ⊢
      obtain ⟨v, hv⟩ := h2 hi
      exact ⟨v, s, _, [], hv, r, hj, hs0, hv, rfl, rfl, by simp⟩
    · have hnc : ∀ c, a = .call c → s.sco.cur ≠ some j := fun c e => absurd ⟨c, e⟩ hc
      obtain ⟨es, hes, hes2⟩ := step_noCall hs hnc
      have hst := step_stat hw hs j
      unfold Rt.step at hs
      split at hs
      · cases hs
      have quiet : (s'.co j) = s.co j → InvN ok j s' := by
        intro e
        refine ⟨by rw [e]; exact h.ft, fun hi => ?_⟩
        rw [e] at hi ⊢
        rcases h.nw hi with hx | ⟨v, s0, s1, fs, a1, a2, a3, a4, a5, a6, a7, a8⟩
        · exact .inl hx
        · refine .inr ⟨v, s0, s1, es ++ fs, a1, a2, a3, a4, a5, a6, by rw [hes, a7, List.append_assoc], fun e he => ?_⟩
          rcases List.mem_append.mp he with he | he
          · exact hes2 e he
          · exact a8 e he
      cases a with
      | call c => exact absurd ⟨c, rfl⟩ hc
      | finish =>
        simp only [hj] at hs
        split at hs <;> cases hs
        exact ⟨fits_exit (by rw [pc_setPc]; rfl), fun _ => .inl (by rw [pc_setPc]; rfl)⟩
      | tau =>
        simp only [hj] at hs
        refine ⟨tauCo_fits hf hs h.ft, fun hi => ?_⟩
        have hpre : ∀ c, (s.co j).call = c → imm c = true → (s.co j).pc.exiting = true ∨ ∃ v, (s.co j).pc = .ret v := by
          intro c e hc; subst e
          rcases h.nw hc with hx | ⟨v, _, _, _, a1, _⟩
          · exact .inl hx
          · exact .inr ⟨v, a1⟩
        have hcl : (s'.co j).call = (s.co j).call := by
          rcases hst with ⟨h3, h4⟩ | ⟨c, ha, hc, hp, h3⟩ | ⟨i, g, ha, hi', hj, h3⟩ | ⟨v, ha, hc, hp, h3⟩ | ⟨x, q, ha, hc, hp, hq, h3⟩ | ⟨x, y, ha, hc, hp, h3⟩
          · exact stat_call h3
          · cases ha
          · simp at ha
          · rw [(stat_call h3).trans rfl] at hi; cases hi
          · exact (stat_call h3).trans rfl
          · exact (stat_call h3).trans rfl
        rw [hcl] at hi
        rcases hpre _ rfl hi with hx | ⟨v, hx⟩
        · exact .inl (tauCo_exiting hs hx)
        · left
          unfold tauCo at hs; rw [hx] at hs; simp at hs; subst hs
          unfold doRet at hcl ⊢; split
          · rw [pc_setPc]; rfl
          · rename_i hv
            rw [if_neg hv] at hcl; simp [upd_co] at hcl
            rw [← hcl] at hi; cases hi
      | submit ok' =>
        simp only [hj] at hs
        have hft := h.ft
        split at hs
        · rename_i hp
          unfold fits at hft; rw [hp] at hft
          have him : imm (s.co j).call = false := by rw [hft]; rfl
          split at hs <;> cases hs
          · have hcl : ((setPc { s with jobs := j :: s.jobs } j .workWait).co j).call = .work := by simp [setPc, upd_co, hft]
            exact ⟨by unfold fits; simp only [pc_setPc]; exact hcl, fun hi => by
              rw [show (((setPc { s with jobs := j :: s.jobs } j .workWait).co j).call) = .work from hcl] at hi; cases hi⟩
          · exact ⟨h.ft, fun hi => by rw [him] at hi; cases hi⟩
        · cases hs
      | events evs =>
        simp only at hs
        split at hs
        · rename_i h1; rw [hj] at h1; simp at h1
        · cases hs
      | clock t => simp only at hs; split at hs <;> cases hs; exact quiet rfl
      | signal n => simp only at hs; (repeat' split at hs) <;> cases hs <;> exact quiet rfl
      | wdone k => simp only at hs; split at hs <;> cases hs; exact quiet rfl
  · by_cases hn : (a = .call .start ∨ a = .call .genStart) ∧ j = s.sco.nextId + 1
    · obtain ⟨ha, rfl⟩ := hn
      obtain ⟨i, g, _, e1, _⟩ := start_new ha hs
      have := newCo_pc s i g
      refine ⟨by rw [e1]; unfold fits; rw [this.1]; exact this.2, fun hi => ?_⟩
      rw [e1, this.2] at hi; cases hi
    · have hm := step_other (reach_invL r) (reach_invC r) hs hj (fun ha e => hn ⟨ha, e⟩) (((reach_invF r).cf j).evU)
      obtain ⟨es, hes, hes2⟩ := step_noCall hs (fun _ _ => hj)
      refine ⟨fits_mvs hm h.ft, fun hi => ?_⟩
      rw [hm.pc.1, hm.pc.2] at *
      rcases h.nw hi with hx | ⟨v, s0, s1, fs, a1, a2, a3, a4, a5, a6, a7, a8⟩
      · exact .inl hx
      · refine .inr ⟨v, s0, s1, es ++ fs, a1, a2, a3, a4, a5, by rw [a6, hm.rdat a1], by rw [hes, a7, List.append_assoc], fun e he => ?_⟩
        rcases List.mem_append.mp he with he | he
        · exact hes2 e he
        · exact a8 e he

theorem reach_invN {ok} {s : S} (r : Reach ok s) (hf : s.fault = false) (j : Nat) : InvN ok j s := by
  induction r with
  | init a e =>
    have : ((init a e).co j).pc = .user ∧ ((init a e).co j).call = .none := by unfold init; dsimp only; split <;> exact ⟨rfl, rfl⟩
    exact ⟨by unfold fits; rw [this.1]; exact this.2, fun hi => by rw [this.2] at hi; cases hi⟩
  | step r a hok hs ih => exact (ih (step_nofault hs)).step r hok hf hs

/-- an immediate call was settled in the step that made it -/
theorem imm_returns {ok} {s : S} {i : Nat} {c : Call} {v : Int} {d : Msg} (r : Reach ok s) (h : Returns s i c v d) (hi : imm c = true) :
    ∃ s0 s1 es, Reach ok s0 ∧ s0.sco.cur = some i ∧ step s0 (.call c) = some s1 ∧ (s1.co i).pc = .ret v ∧ (s1.co i).rdat = d ∧ s.log = es ++ s1.log ∧ ∀ e ∈ es, isCallOf i e = false := by
  obtain ⟨h1, h2, h3, h4, h5⟩ := h.elim
  obtain ⟨s', hs, _⟩ := h
  have hN := reach_invN r (step_nofault hs) i
  rcases hN.nw (by rw [h3]; exact hi) with hx | ⟨w, s0, s1, fs, a1, a2, a3, a4, a5, a6, a7, a8⟩
  · rw [h2] at hx; cases hx
  · rw [h2] at a1; cases a1
    exact ⟨s0, s1, fs, a2, a3, by rw [← h3]; exact a4, a5, by rw [a6, h4], a7, a8⟩

theorem returns_codes {ok} {s : S} {i : Nat} {c : Call} {v : Int} {d : Msg} (r : Reach ok s) (h : Returns s i c v d) : codes c v := by
  obtain ⟨h1, h2, h3, h4, h5⟩ := h.elim
  obtain ⟨s', hs, _⟩ := h
  have hN := (reach_invN r (step_nofault hs) i).ft
  unfold fits at hN; rw [h2, h3] at hN; exact hN

end Neco.Rt
