import Verif.Proof.RtCancel
/-!
# Cancel states and cleanup handlers
-/
namespace Neco.Rt
open Neco.Err

/-! ## The defaults do not change -/

theorem doCall_env (s : S) (i : Nat) (c : Call) : (doCall s i c).envEnabled = s.envEnabled := by
  cases c
  case chRetain => simp only [doCall]; split <;> simp
  all_goals first | rfl | simp [doCall] | skip

theorem afterBlk_env (s : S) (i : Nat) (b : Blk) : (afterBlk s i b).envEnabled = s.envEnabled := by
  cases b <;> simp only [afterBlk] <;> (repeat' split) <;> simp

theorem tauCo_env {s s' : S} {i : Nat} (hs : tauCo s i = some s') : s'.envEnabled = s.envEnabled := by
  unfold tauCo at hs
  split at hs
  all_goals (repeat' split at hs) <;> cases hs <;> first | rfl | simp [afterBlk_env]

theorem tauMain_env {s s' : S} (h : tauMain s = some s') : s'.envEnabled = s.envEnabled := by
  unfold tauMain at h
  (repeat' split at h) <;> cases h <;> first | rfl | simp

theorem step_env {s s' : S} {a : Act} (hs : step s a = some s') : s'.envEnabled = s.envEnabled := by
  unfold step at hs
  split at hs
  · cases hs
  cases a with
  | call c => simp only at hs; (repeat' split at hs) <;> cases hs; rw [doCall_env]; simp
  | tau =>
    simp only at hs
    split at hs
    · exact tauCo_env hs
    · exact tauMain_env hs
  | _ => simp only at hs; (repeat' split at hs) <;> cases hs <;> simp

/-! ## Only rare events matter -/

theorem cancelOn_rl (env : Bool) (i : Nat) (l : List Ev) : cancelOn env i (l.filter Ev.rare) = cancelOn env i l := by
  induction l with
  | nil => rfl
  | cons e l ih => cases e <;> simp [Ev.rare, List.filter_cons, ih, cancelOn]; rename_i c; cases c <;> simp [cancelOn, ih]
theorem dying_rl (i : Nat) (l : List Ev) : dying i (l.filter Ev.rare) = dying i l := by
  induction l with
  | nil => rfl
  | cons e l ih => unfold dying at *; cases e <;> simp [Ev.rare, List.filter_cons, ih, endsBy]
theorem handlers_rl (i : Nat) (l : List Ev) : handlers i (l.filter Ev.rare) = handlers i l := by
  induction l with
  | nil => rfl
  | cons e l ih => cases e <;> simp [Ev.rare, List.filter_cons, ih, handlers]; rename_i c; cases c <;> simp [handlers, ih]
theorem ran_rl (i : Nat) (l : List Ev) : ran i (l.filter Ev.rare) = ran i l := by
  induction l with
  | nil => rfl
  | cons e l ih => cases e <;> simp [Ev.rare, List.filter_cons, ih, ran, dying_rl]
theorem canceledTimes_rl (i : Nat) (l : List Ev) : canceledTimes i (l.filter Ev.rare) = canceledTimes i l := by
  induction l with
  | nil => rfl
  | cons e l ih => cases e <;> simp [Ev.rare, List.filter_cons, ih, canceledTimes_cons, cancels]
theorem ran_alive {i : Nat} {l : List Ev} (h : dying i l = false) : ran i l = [] := by
  induction l with
  | nil => rfl
  | cons e l ih =>
    have h' : dying i l = false := by unfold dying at h ⊢; simp at h ⊢; exact h.2
    cases e <;> simp [ran, h', ih h']
theorem dying_cons (i : Nat) (e : Ev) (l : List Ev) : dying i (e :: l) = (endsBy i e || dying i l) := rfl
theorem mem_rl {e : Ev} {s : S} (h : e.rare = true) : e ∈ rl s ↔ e ∈ s.log := by unfold rl; simp [h]

/-! ## The cancel state -/

structure InvEn (s : S) : Prop where
  en : ∀ j, 1 ≤ j → j ≤ s.sco.nextId → (s.co j).enabled = cancelOn s.envEnabled j (rl s)
  fr : ∀ j c, s.sco.nextId < j → .call j c ∉ rl s

theorem cancelOn_cons {env : Bool} {j : Nat} {e : Ev} {l : List Ev} (h : ∀ c, e ≠ .call j c) : cancelOn env j (e :: l) = cancelOn env j l := by
  cases e <;> try rfl
  rename_i k c
  cases c <;> try rfl
  simp only [cancelOn]
  rw [if_neg (fun e => h _ (by rw [e]))]
theorem cancelOn_other {env : Bool} {j : Nat} {es l : List Ev} (h : ∀ c, .call j c ∉ es) : cancelOn env j (es ++ l) = cancelOn env j l := by
  induction es with
  | nil => rfl
  | cons e es ih =>
    rw [List.cons_append, cancelOn_cons (fun c hc => h c (by rw [hc]; exact .head _)), ih (fun c hc => h c (.tail _ hc))]
theorem cancelOn_fresh {env : Bool} {j : Nat} {l : List Ev} (h : ∀ c, .call j c ∉ l) : cancelOn env j l = env := by
  have := cancelOn_other (env := env) (l := []) h
  rw [List.append_nil] at this; exact this

/-- the calls among the rare events of a step -/
theorem StepRare.calls {s : S} {a : Act} {es : List Ev} (h : StepRare s a es) {j : Nat} {c : Call} (hm : .call j c ∈ es) : a = .call c ∧ s.sco.cur = some j := by
  cases h
  case call c' i hc hp hn h1 h2 => simp at hm; obtain ⟨rfl, rfl⟩ := hm; exact ⟨rfl, hc⟩
  case start c' i hc hp h => simp at hm; obtain ⟨rfl, rfl⟩ := hm; exact ⟨rfl, hc⟩
  case cpop i hc hp x q hq => simp at hm; obtain ⟨rfl, rfl⟩ := hm; exact ⟨rfl, hc⟩
  case tau i hc h => cases h <;> simp at hm
  all_goals simp at hm

theorem StepRare.ofCall {s : S} {c : Call} {es : List Ev} (hr : StepRare s (.call c) es) {j : Nat} (hc : s.sco.cur = some j) : ∃ fs, es = fs ++ [.call j c] ∧ ∀ c, .call j c ∉ fs := by
  cases hr with
  | call _ i hc' => rw [hc] at hc'; cases hc'; exact ⟨[], rfl, by simp⟩
  | start _ i hc' => rw [hc] at hc'; cases hc'; exact ⟨[_], rfl, by simp⟩
  | cpop i hc' => rw [hc] at hc'; cases hc'; exact ⟨[_], rfl, by simp⟩
  | nil _ ha => exact absurd rfl (ha c)

theorem old_id {ok} {s s' : S} {a : Act} (r : Reach ok s) (hs : step s a = some s') {j : Nat} (hj : j ≤ s'.sco.nextId) (hn : ¬ ((a = .call .start ∨ a = .call .genStart) ∧ j = s.sco.nextId + 1)) : j ≤ s.sco.nextId := by
  rw [nx_step hs (reach_invA r)] at hj
  split at hj
  · rename_i ha
    rcases Nat.lt_or_ge s.sco.nextId j with h | h
    · exact absurd ⟨ha, by omega⟩ hn
    · exact h
  · exact hj

theorem reach_invEn {ok} {s : S} (r : Reach ok s) : InvEn s := by
  induction r with
  | init a e =>
    refine ⟨fun j h1 h2 => ?_, fun j c _ => ?_⟩
    · have : j = 1 := by simp [init, Sco.start] at h2; omega
      subst this; rfl
    · simp [init, rl, Ev.rare]
  | @step s s' r a hok hs ih =>
    have hw := reach_scoWF r
    have hnx := step_nextId hw hs
    obtain ⟨es, hes, hr⟩ := step_rl hs
    refine ⟨fun j h1 hj => ?_, fun j c hj => ?_⟩
    · rw [step_env hs, hes]
      have other : (∀ c, a = .call c → s.sco.cur ≠ some j) → cancelOn s.envEnabled j (es ++ rl s) = cancelOn s.envEnabled j (rl s) :=
        fun h => cancelOn_other (fun c hc => (h c (hr.calls hc).1) (hr.calls hc).2)
      by_cases hn : (a = .call .start ∨ a = .call .genStart) ∧ j = s.sco.nextId + 1
      · obtain ⟨ha, rfl⟩ := hn
        obtain ⟨i, g, hc, e1, _⟩ := start_new ha hs
        rw [other (fun c _ hc => by have := (cur_le hw hc).2; omega), cancelOn_fresh (fun c => ih.fr _ c (Nat.lt_succ_self _)), e1]
        unfold newCo; split <;> rfl
      have hle := old_id r hs hj hn
      have e0 := ih.en j h1 hle
      have old : (s'.co j).enabled = (s.co j).enabled → (∀ c, a = .call c → s.sco.cur ≠ some j) → (s'.co j).enabled = cancelOn s.envEnabled j (es ++ rl s) := by
        intro h1 h2
        rw [other h2, h1, e0]
      have sten : ∀ {k k' : Co}, stat k = stat k' → k.enabled = k'.enabled := by
        intro k k' h; simp only [stat, Prod.mk.injEq] at h; exact h.2.2.2.2.1
      cases step_stat hw hs j with
      | same h hn => exact old (sten h) hn
      | call c ha hc hp h =>
        have h := sten h
        subst ha
        have hcalls := hr.ofCall hc
        obtain ⟨fs, rfl, hfs⟩ := hcalls
        rw [List.append_assoc, cancelOn_other hfs, h]
        cases c <;> simp only [callStat, List.singleton_append, cancelOn, e0, if_true]
        all_goals (split <;> rfl)
      | new i g ha hi hj' h =>
        exact absurd ⟨ha.elim (fun h => .inl h.1) (fun h => .inr h.1), hj'⟩ hn
      | ret v ha hc hp h => exact old ((sten h).trans rfl) (by rw [ha]; simp)
      | clean x q ha hc hp hq h => exact old ((sten h).trans rfl) (by rw [ha]; simp)
      | genRel x y ha hc hp h => exact old ((sten h).trans rfl) (by rw [ha]; simp)
    · rw [hes]
      intro hm
      rcases List.mem_append.mp hm with hm | hm
      · have := (cur_le hw (hr.calls hm).2).2; omega
      · exact ih.fr j c (by omega) hm

/-- what holds of every rare event and the history before it -/
theorem rl_all {ok} {P : Bool → Ev → List Ev → Prop} (h0 : ∀ env, P env (.start none 1) [])
    (h1 : ∀ (s s' : S) (a : Act), Reach ok s → ok s a → step s a = some s' → ∀ es, StepRare s a es → rl s' = es ++ rl s → ∀ x e y, es = x ++ e :: y → P s.envEnabled e (y ++ rl s)) {s : S} (r : Reach ok s) :
    ∀ {x b : List Ev} {e : Ev}, rl s = x ++ e :: b → P s.envEnabled e b := by
  induction r with
  | init a e =>
    intro x b e h
    rw [rl] at h
    simp only [init] at h
    rw [show List.filter Ev.rare [Ev.start none 1] = [Ev.start none 1] from rfl] at h
    cases x with
    | nil => simp at h; obtain ⟨rfl, rfl⟩ := h; exact h0 _
    | cons => simp at h
  | @step s s' r a hok hs ih =>
    intro x b e h
    obtain ⟨es, hes, hr⟩ := step_rl hs
    rw [step_env hs]
    have h' := h
    rw [hes] at h
    rcases List.append_eq_append_iff.mp h with ⟨z, h2, h3⟩ | ⟨z, h2, h3⟩
    · exact ih h3
    · cases z with
      | nil => exact ih (x := []) (by simpa using h3.symm)
      | cons w z =>
        simp at h3; obtain ⟨rfl, rfl⟩ := h3
        exact h1 s s' a r hok hs es hr hes x e z h2

/-- only coroutines with cancelation enabled are canceled -/
theorem canceled_on {ok} {s : S} (r : Reach ok s) : ∀ {x b : List Ev} {e : Ev}, rl s = x ++ e :: b → ∀ k i, e = .cancel k i → cancelOn s.envEnabled i b = true := by
  refine rl_all (P := fun env e b => ∀ k i, e = .cancel k i → cancelOn env i b = true) (fun _ _ _ h => by cases h) ?_ r
  intro s s' a r _ hs es hr _ x e y he k i hek
  subst hek
  cases hr with
  | tau i' hc _ h =>
    cases h with
    | cancel id dl hp hc' hid hen =>
      cases x with
      | nil =>
        simp at he; obtain ⟨⟨rfl, rfl⟩, rfl⟩ := he
        rw [all_live r] at hid
        have := (mem_starts r).mp (live_sub_starts hid)
        rw [List.nil_append, ← (reach_invEn r).en id this.1 this.2]; exact hen
      | cons => simp at he
    | _ => cases x <;> simp at he
  | start => cases x with
    | nil => simp at he
    | cons _ x => cases x <;> simp at he
  | cpop => cases x with
    | nil => simp at he
    | cons _ x => cases x <;> simp at he
  | _ => cases x <;> simp at he

/-! ## Cleanup handlers -/

theorem tauCo_run {s s' : S} {i : Nat} (hs : tauCo s i = some s') {b : Bool} (hp : (s'.co i).pc = .exitRun b) : (s.co i).pc = .exitRun b ∨ (b = true ∧ ∃ x, rl s' = .kill i x :: rl s) := by
  unfold tauCo at hs
  split at hs
  · cases hs
  · cases hs
  · cases hs
  · cases hs
    revert hp; unfold doRet; split
    · intro hp; rw [pc_setPc] at hp; cases hp; exact .inr ⟨rfl, false, by simp [Ev.rare]⟩
    · intro hp; simp [upd_co] at hp
  · (repeat' split at hs) <;> cases hs
    · rw [pc_setPc] at hp; cases hp; exact .inr ⟨rfl, true, by simp [Ev.rare]⟩
    · rw [pc_setPc] at hp; cases hp
    · rw [pc_coyield] at hp; cases hp
  · cases hs; rw [pc_coyield] at hp; cases hp
  · rename_i a e
    cases hs
    revert hp
    cases a <;> simp only [doAft]
    case condEnq => unfold cvEnq; (repeat' split) <;> simp_all
    all_goals ((repeat' split) <;> simp_all [doFin])
  · cases hs; rw [pc_retv] at hp; cases hp
  · rename_i b' _
    cases hs
    by_cases hb : b' = .relock
    · subst hb
      obtain ⟨t, _, _, hl, et⟩ := afterBlk_relock (preBlk (unpause s i) i .relock) i
      have hl : t.log = s.log := hl.trans (by simp [preBlk])
      rw [et] at hp ⊢
      revert hp
      (repeat' split)
      · simp
      · intro hp; rw [pc_setPc] at hp; cases hp; exact .inr ⟨rfl, false, by simp [rl, hl, Ev.rare, List.filter_cons]⟩
      · simp
    · exfalso; revert hp
      cases b' <;> simp only [afterBlk] <;> (repeat' split) <;> simp_all
  · split at hs <;> cases hs
    · revert hp; unfold doCancel; dsimp only; (repeat' split) <;> simp_all
    · rename_i e _ _ ; rw [e] at hp; cases hp
  · split at hs <;> cases hs
    · revert hp; unfold doRelock finishLock; dsimp only; (repeat' split)
      all_goals try (simp; done)
      intro hp; rw [pc_setPc] at hp; cases hp; exact .inr ⟨rfl, false, by simp [rl, Ev.rare, List.filter_cons]⟩
    · rename_i e _ _ ; rw [e] at hp; cases hp
  · cases hs; rw [pc_retv] at hp; cases hp
  · rename_i a e
    cases hs
    have hx : ∀ x, ((exitNotify s i x).co i).pc = .exitRun b → (s.co i).pc = .exitRun b := by
      intro x; unfold exitNotify; dsimp only; (repeat' split)
      · simp
      · simp [e]
      · simp
      · unfold chanClose1; dsimp only; split
        · simp
        · rw [(pc_yfsr ..).choose_spec]; simp
    left
    revert hp
    unfold doExit; (repeat' split)
    · simp [upd_co, e]
    · exact hx _
    · exact hx _

/-- about to run the cleanup handlers -/
def runPc : Pc → Bool
  | .exitRun _ => true
  | _ => false
theorem chanClose1_run {s : S} {i c : Nat} {ch : Chan} {a : Aft} : runPc ((chanClose1 s i c ch a).co i).pc = false := by
  unfold chanClose1; dsimp only; split
  · rw [pc_setPc]; rfl
  · rw [(pc_yfsr ..).choose_spec]; rfl

macro "runpc_tac" : tactic => `(tactic| ((try dsimp only); (repeat' split) <;> (try simp_all [runPc])))

theorem doCall_run (s : S) (i : Nat) (c : Call) (hx : c ≠ .exit) (hu : runPc (s.co i).pc = false) (hn : i ≤ s.sco.nextId) :
    runPc ((doCall s i c).co i).pc = false := by
  cases c <;> simp only [doCall]
  case none => exact hu
  case exit => exact absurd rfl hx
  case send => unfold chanSend sendRest; runpc_tac
  case genYield => unfold doGenYield chanSend sendRest; runpc_tac
  case recv => unfold chanRecv; runpc_tac
  case select => unfold chanSelect; runpc_tac
  case start => simp [doStart_pc s i none hn, runPc]
  case genStart => unfold doGenStart; dsimp only; rw [doStart_pc _ _ _ (by exact hn)]; rfl
  case yield => simp [runPc]
  case sleep => unfold doSleep; runpc_tac
  case join => unfold doJoin; runpc_tac
  case suspend => unfold doSuspend; runpc_tac
  case resume => unfold doResume; runpc_tac
  case bcast => unfold chanBcast; runpc_tac
  case tryrecv =>
    unfold chanRecv; (repeat' split) <;> first | exact hu | (simp [runPc]; done) | skip
    skip
  case close =>
    unfold chanClose; (repeat' split) <;> first | exact hu | (simp [runPc]; done) | exact chanClose1_run
  case tryselect =>
    unfold chanSelect; dsimp only; (repeat' split) <;> first | exact hu | (simp [runPc]; done) | skip
    skip
  case lock => unfold muLock finishLock; runpc_tac
  case rdlock => unfold muRdlock finishLock; runpc_tac
  case unlock => unfold muUnlock; runpc_tac
  case trylock => unfold muTrylock; runpc_tac
  case tryrdlock => unfold muTryrdlock; runpc_tac
  case wgAdd => unfold wgAdd; runpc_tac
  case wgDone => unfold wgDone; runpc_tac
  case wgWait => unfold wgWait; runpc_tac
  case cvSignal => unfold cvSignal; runpc_tac
  case cvBcast => unfold cvBcast; runpc_tac
  case cvWait => unfold cvWait cvEnq; runpc_tac
  case sigWatch => unfold doSigWatch; runpc_tac
  case sigUnwatch => unfold doSigUnwatch; runpc_tac
  case sigWait => unfold doSigWait; runpc_tac
  case wait => unfold doWait; runpc_tac
  case chRetain => runpc_tac
  case chCase => unfold chanCase; runpc_tac
  case cpop => unfold doCpop; runpc_tac
  all_goals simp [runPc]

theorem tauCo_kill {s s' : S} {i : Nat} {x : Bool} (hs : tauCo s i = some s') (hl : rl s' = .kill i x :: rl s) : (s'.co i).pc = .exitRun true := by
  have ne : s'.log ≠ s.log := by
    intro e; rw [rl, rl, e] at hl
    exact absurd (congrArg List.length hl) (by simp)
  obtain ⟨es, hes, hr⟩ := tauCo_rl hs
  have : es = [.kill i x] := (List.append_cancel_right (bs := rl s) (by rw [← hes, hl]; rfl))
  subst this
  unfold tauCo at hs
  cases hr with
  | killRet hp hg ha =>
    rw [hp] at hs; simp only at hs; cases hs
    unfold doRet; rw [if_pos ⟨rfl, hg, ha⟩]; simp
  | killYield n a hp hc ha =>
    rw [hp] at hs; simp only at hs; rw [if_pos ⟨hc, ha⟩] at hs; cases hs; simp
  | killRelock hp hc ha =>
    rcases hp with hp | hp <;> rw [hp] at hs <;> simp only at hs
    · split at hs <;> cases hs
      · revert ne hl; unfold doRelock finishLock; dsimp only; (repeat' split)
        · intro ne hl; simp [rl, Ev.rare, List.filter_cons] at hl
        · simp
        all_goals (intro ne; exact absurd (by simp) ne)
      · exact absurd rfl ne
    · cases hs
      obtain ⟨t, _, _, hl', et⟩ := afterBlk_relock (preBlk (unpause s i) i .relock) i
      have hl' : t.log = s.log := hl'.trans (by simp [preBlk])
      rw [et] at ne ⊢
      revert ne
      (repeat' split)
      · intro ne; exact absurd (by simp [hl']) ne
      · simp
      · intro ne; exact absurd (by simp [hl']) ne

/-- where a coroutine that is ending or has ended can be -/
structure InvDy (s : S) : Prop where
  dy : s.fault = false → ∀ j, dying j (rl s) = true ∨ .exit j ∈ rl s → (s.co j).pc.exiting = true ∧ (s.co j).pc ≠ .exitRun false
  ru : ∀ j, (s.co j).pc = .exitRun true → dying j (rl s) = true
  fr : ∀ j, s.sco.nextId < j → dying j (rl s) = false

theorem dying_append (i : Nat) (a b : List Ev) : dying i (a ++ b) = (dying i a || dying i b) := by unfold dying; simp

theorem doExit_pc {s : S} {i : Nat} {a : Bool} (e : (s.co i).pc = .exitRun a) : ((doExit s i a).co i).pc.exiting = true ∧ (a = true → ((doExit s i a).co i).pc ≠ .exitRun false) := by
  have ht : tauCo s i = some (doExit s i a) := by unfold tauCo; rw [e]
  refine ⟨tauCo_exiting ht (by rw [e]; rfl), fun ha hp => ?_⟩
  rcases tauCo_run ht hp with h | h
  · rw [e, ha] at h; cases h
  · cases h.1

theorem StepRare.ends {s : S} {a : Act} {es : List Ev} (h : StepRare s a es) {j : Nat} (hd : dying j es = true) : s.sco.cur = some j ∧ (a = .call .exit ∨ a = .tau ∧ ∃ x, es = [.kill j x]) := by
  cases h with
  | call c i hc => simp [dying] at hd; cases c <;> simp [endsBy] at hd; subst hd; exact ⟨hc, .inl rfl⟩
  | start c i hc _ h => simp [dying] at hd; rcases h with rfl | rfl <;> simp [endsBy] at hd
  | cpop i hc => simp [dying, endsBy] at hd
  | tau i hc _ h => cases h <;> simp [dying, endsBy] at hd <;> (subst hd; exact ⟨hc, .inr ⟨rfl, _, rfl⟩⟩)
  | _ => simp [dying, endsBy] at hd

theorem reach_invDy {ok} {s : S} (r : Reach ok s) : InvDy s := by
  induction r with
  | init a e =>
    have : rl (init a e) = [.start none 1] := rfl
    refine ⟨fun _ j h => ?_, fun j h => ?_, fun j h => ?_⟩ <;> rw [this] at *
    · simp [dying, endsBy] at h
    · exfalso; revert h; simp only [init]; split <;> simp
    · rfl
  | @step s s' r a hok hs ih =>
    have hw := reach_scoWF r
    have hnx := step_nextId hw hs
    obtain ⟨es, hes, hr⟩ := step_rl hs
    have hE := reach_invE r
    refine ⟨fun hf j h => ?_, fun j h => ?_, fun j h => ?_⟩
    · by_cases hn : (a = .call .start ∨ a = .call .genStart) ∧ j = s.sco.nextId + 1
      · exfalso
        obtain ⟨ha, rfl⟩ := hn
        rw [hes] at h
        have h1 := ih.fr _ (Nat.lt_succ_self s.sco.nextId)
        rcases h with h | h
        · rw [dying_append, h1, Bool.or_false] at h
          have := (cur_le hw (hr.ends h).1).2; omega
        · rw [← hes, mem_rl rfl] at h
          have := (reach_invE (.step r a hok hs)).le _ h
          rcases step_exitEv hs h with h | h
          · have := hE.le _ h; omega
          · rcases ha with ha | ha <;> rw [ha] at h <;> cases h.1
      have old : dying j (rl s) = true ∨ .exit j ∈ rl s → (s'.co j).pc.exiting = true ∧ (s'.co j).pc ≠ .exitRun false := by
        intro h0
        obtain ⟨h1, h2⟩ := ih.dy (step_nofault hs) j h0
        cases step_pcs r hs j with
        | same h => rw [h]; exact ⟨h1, h2⟩
        | new ha hj h => exact absurd ⟨ha, hj⟩ hn
        | call c ha hc hu h => rw [hu] at h1; cases h1
        | finish ha hc hu h => rw [hu] at h1; cases h1
        | submit ha hc hp h => rw [hp] at h1; cases h1
        | tau ha hc ht =>
          refine ⟨tauCo_exiting ht h1, fun hp => ?_⟩
          rcases tauCo_run ht hp with h | h
          · exact h2 h
          · cases h.1
      by_cases h0 : dying j (rl s) = true ∨ .exit j ∈ rl s
      · exact old h0
      have h0' := not_or.mp h0
      rcases h with h | h
      · rw [hes, dying_append] at h
        have hd : dying j es = true := by
          rcases Bool.or_eq_true _ _ ▸ h with h | h
          · exact h
          · exact absurd h h0'.1
        obtain ⟨hc, ha | ⟨ha, x, hx⟩⟩ := hr.ends hd
        · subst ha
          obtain ⟨hu, _, rfl⟩ := step_call_of hs hc
          simp only [doCall, pc_setPc]; exact ⟨rfl, by simp⟩
        · subst ha
          have ht : tauCo s j = some s' := by
            unfold step at hs; split at hs
            · cases hs
            · simpa [hc] using hs
          obtain ⟨es', hes', hr'⟩ := tauCo_rl ht
          have : es' = [.kill j x] := by
            rw [hes, hx] at hes'; exact (List.append_cancel_right hes').symm
          have hp := tauCo_kill ht (by rw [hes, hx]; rfl)
          rw [hp]; exact ⟨rfl, by simp⟩
      · rcases step_exitEv hs ((mem_rl rfl).mp h) with h | ⟨ha, hc, x, hp, hx⟩
        · exact absurd ((mem_rl rfl).mpr h) h0'.2
        · have ht : tauCo s j = some s' := by
            unfold step at hs; split at hs
            · cases hs
            · subst ha; simpa [hc] using hs
          refine ⟨tauCo_exiting ht (by rw [hp]; rfl), ?_⟩
          rw [hx] at hf ⊢
          revert hf
          unfold exitNotify; dsimp only; (repeat' split)
          · simp
          · intro hf; simp at hf
          · simp
          · intro _ he; have h := congrArg runPc he; rw [chanClose1_run] at h; cases h
    · rw [hes, dying_append]
      cases step_pcs r hs j with
      | same h' => rw [h'] at h; rw [ih.ru j h]; simp
      | new ha hj h' => rw [h'] at h; cases h
      | call c ha hc hu h' =>
        by_cases hx : c = .exit
        · subst hx ha
          obtain ⟨fs, hfs, _⟩ := hr.ofCall hc
          rw [hfs, dying_append]; simp [dying, endsBy]
        · have := doCall_run (callSt s j c) j c hx (by rw [callSt_field Co.pc (by intros; rfl), hu]; rfl) (cur_le hw hc).2
          rw [← h', h] at this; cases this
      | finish ha hc hu h' => subst h'; rw [pc_setPc] at h; cases h
      | submit ha hc hp h' => rw [h'] at h; cases h
      | tau ha hc ht =>
        rcases tauCo_run ht h with h | ⟨_, x, h⟩
        · rw [ih.ru j h]; simp
        · rw [h] at hes
          have : es = [.kill j x] := (List.append_cancel_right (bs := rl s) (by rw [← hes]; rfl)).symm
          rw [this]; simp [dying, endsBy]
    · rw [hes, dying_append, ih.fr j (by omega), Bool.or_false]
      cases hd : dying j es with
      | false => rfl
      | true => have := (cur_le hw (hr.ends hd).1).2; omega

theorem Paired.suffix {a l : List Ev} (h : Paired (a ++ l)) : Paired l := fun x b i e => h (a ++ x) b i (by rw [e]; simp)

theorem handlers_cons {j : Nat} {e : Ev} {l : List Ev} (h : ∀ c, e ≠ .call j c) : handlers j (e :: l) = handlers j l := by
  cases e <;> try rfl
  rename_i k c
  cases c <;> try rfl
  all_goals (simp only [handlers]; rw [if_neg (fun e => h _ (by rw [e]))])
theorem handlers_other {j : Nat} {es l : List Ev} (h : ∀ c, .call j c ∉ es) : handlers j (es ++ l) = handlers j l := by
  induction es with
  | nil => rfl
  | cons e es ih => rw [List.cons_append, handlers_cons (fun c hc => h c (by rw [hc]; exact .head _)), ih (fun c hc => h c (.tail _ hc))]
theorem handlers_fresh {j : Nat} {l : List Ev} (h : ∀ c, .call j c ∉ l) : handlers j l = [] := by
  have := handlers_other (l := []) h
  rw [List.append_nil] at this; exact this
theorem ran_cons {j : Nat} {e : Ev} {l : List Ev} (h : ∀ x, e ≠ .clean j x) : ran j (e :: l) = ran j l := by
  cases e <;> try rfl
  simp only [ran]; rw [if_neg (fun e => h _ (by rw [e.1]))]
theorem ran_other {j : Nat} {es l : List Ev} (h : ∀ x, .clean j x ∉ es) : ran j (es ++ l) = ran j l := by
  induction es with
  | nil => rfl
  | cons e es ih => rw [List.cons_append, ran_cons (fun c hc => h c (by rw [hc]; exact .head _)), ih (fun c hc => h c (.tail _ hc))]
theorem StepRare.cleans {s : S} {a : Act} {es : List Ev} (h : StepRare s a es) {j x : Nat} (hm : .clean j x ∈ es) :
    s.sco.cur = some j ∧ ((a = .call (.cpop true) ∧ es = [.clean j x, .call j (.cpop true)]) ∨ a = .tau ∧ es = [.clean j x] ∧ (s.co j).pc = .exitRun true ∧ ∃ q, (s.co j).cleanup = x :: q) := by
  cases h with
  | cpop i hc hp h q hq => simp at hm; obtain ⟨rfl, rfl⟩ := hm; exact ⟨hc, .inl ⟨rfl, rfl⟩⟩
  | tau i hc _ h =>
    cases h with
    | clean h q hp hq => simp at hm; obtain ⟨rfl, rfl⟩ := hm; exact ⟨hc, .inr ⟨rfl, rfl, hp, q, hq⟩⟩
    | _ => simp at hm
  | _ => simp at hm

structure InvCl (s : S) : Prop where
  eq : Paired (rl s) → ∀ j, j ≤ s.sco.nextId → ran j (rl s) ++ (s.co j).cleanup = handlers j (rl s)
  ex : s.fault = false → Paired (rl s) → ∀ j, .exit j ∈ rl s → (s.co j).cleanup = []
  po : Paired (rl s) → ∀ p ∈ s.pool, p.1.cleanup = []

theorem stat_cleanup' {k k' : Co} (h : stat k = stat k') : k.cleanup = k'.cleanup := by
  simp only [stat, Prod.mk.injEq] at h; exact h.2.2.2.2.2.1

theorem reach_invCl {ok} {s : S} (r : Reach ok s) : InvCl s := by
  induction r with
  | init a e =>
    have : rl (init a e) = [.start none 1] := rfl
    refine ⟨fun _ j _ => ?_, fun _ _ j h => ?_, fun _ p h => ?_⟩
    · rw [this]; simp only [init]; split <;> rfl
    · rw [this] at h; simp at h
    · cases h
  | @step s s' r a hok hs ih =>
    have hw := reach_scoWF r
    have hf0 := step_nofault hs
    obtain ⟨es, hes, hr⟩ := step_rl hs
    have hP : Paired (rl s') → Paired (rl s) := fun h => by rw [hes] at h; exact h.suffix
    refine ⟨fun hp j hj => ?_, fun hf hp j h => ?_, fun hp p h => ?_⟩
    · have hp0 := hP hp
      by_cases hn : (a = .call .start ∨ a = .call .genStart) ∧ j = s.sco.nextId + 1
      · obtain ⟨ha, rfl⟩ := hn
        obtain ⟨i, g, hc, e1, _⟩ := start_new ha hs
        have hne : ∀ k, s.sco.cur = some k → k ≠ s.sco.nextId + 1 := fun k hk e => by have := (cur_le hw hk).2; omega
        rw [hes, handlers_other (fun c hm => hne _ (hr.calls hm).2 rfl), handlers_fresh (fun c => (reach_invEn r).fr _ c (Nat.lt_succ_self _)),
          ran_other (fun x hm => hne _ (hr.cleans hm).1 rfl), ran_alive ((reach_invDy r).fr _ (Nat.lt_succ_self _)), e1]
        unfold newCo; split
        · rfl
        · rename_i c x q e
          exact ih.po hp0 (c, x) (by rw [e]; exact .head _)
      have hle := old_id r hs hj hn
      have e0 := ih.eq hp0 j hle
      rw [hes]
      cases step_stat hw hs j with
      | same h hnc =>
        rw [handlers_other (fun c hm => hnc c (hr.calls hm).1 (hr.calls hm).2), stat_cleanup' h]
        rw [ran_other]; exact e0
        intro x hm
        obtain ⟨hc, ⟨ha, _⟩ | ⟨ha, _, hpc, q, hq⟩⟩ := hr.cleans hm
        · exact hnc _ ha hc
        · subst ha
          have ht : tauCo s j = some s' := by
            unfold step at hs; split at hs
            · cases hs
            · simpa [hc] using hs
          have h1 := stat_cleanup' h
          unfold tauCo at ht; rw [hpc] at ht; simp only at ht; cases ht
          unfold doExit at h1; rw [if_pos rfl] at h1
          simp only [hq] at h1
          simp [upd_co] at h1
      | call c ha hc hu h =>
        subst ha
        obtain ⟨fs, rfl, hfs⟩ := hr.ofCall hc
        have hd : dying j (rl s) = false := by
          cases hd : dying j (rl s) with
          | false => rfl
          | true => have := ((reach_invDy r).dy hf0 j (.inl hd)).1; rw [hu] at this; cases this
        rw [ran_alive hd, List.nil_append] at e0
        have hran : ran j (fs ++ [Ev.call j c] ++ rl s) = [] := by
          by_cases hx : c = .exit
          · subst hx
            rw [ran_other (fun x hm => ?_), ran_alive hd]
            obtain ⟨_, h | h⟩ := hr.cleans hm <;> cases h.1
          · apply ran_alive
            rw [dying_append, hd, Bool.or_false]
            cases hd' : dying j (fs ++ [Ev.call j c]) with
            | false => rfl
            | true =>
              obtain ⟨_, h | h⟩ := hr.ends hd'
              · exact absurd (by simpa using h) hx
              · cases h.1
        rw [hran, List.nil_append, List.append_assoc, handlers_other hfs, stat_cleanup' h]
        cases c <;> simp only [callStat, List.singleton_append, handlers, e0, if_true]
        all_goals (split <;> rfl)
      | new i g ha hi hj' h => exact absurd ⟨ha.elim (fun h => .inl h.1) (fun h => .inr h.1), hj'⟩ hn
      | ret v ha hc hpc h =>
        rw [handlers_other (fun c hm => by have := (hr.calls hm).1; rw [ha] at this; cases this), stat_cleanup' h, ran_other]
        · exact e0
        · intro x hm
          obtain ⟨_, ⟨ha', _⟩ | ⟨_, _, hpc', _⟩⟩ := hr.cleans hm
          · rw [ha] at ha'; cases ha'
          · rw [hpc] at hpc'; cases hpc'
      | genRel x y ha hc hpc h =>
        rw [handlers_other (fun c hm => by have := (hr.calls hm).1; rw [ha] at this; cases this), stat_cleanup' h, ran_other]
        · exact e0
        · intro x hm
          obtain ⟨_, ⟨ha', _⟩ | ⟨_, _, hpc', _⟩⟩ := hr.cleans hm
          · rw [ha] at ha'; cases ha'
          · rw [hpc] at hpc'; cases hpc'
      | clean x q ha hc hpc hq h =>
        rw [handlers_other (fun c hm => by have := (hr.calls hm).1; rw [ha] at this; cases this), stat_cleanup' h]
        have hd := (reach_invDy r).ru j hpc
        have hes' : es = [.clean j x] := by
          subst ha
          have ht : tauCo s j = some s' := by
            unfold step at hs; split at hs
            · cases hs
            · simpa [hc] using hs
          unfold tauCo at ht; rw [hpc] at ht; simp only at ht; cases ht
          unfold doExit at hes; rw [if_pos rfl] at hes
          simp only [hq, rl_note, Ev.rare, if_true] at hes
          have : rl (upd s j fun k => { k with cleanup := q }) = rl s := rl_of rfl
          rw [this] at hes
          exact (List.append_cancel_right (bs := rl s) (by rw [← hes]; rfl))
        rw [hes']
        simp only [List.singleton_append, ran, hd, and_self, if_true, List.append_assoc]
        rw [hq] at e0; exact e0
    · have hp0 := hP hp
      rcases step_exitEv hs ((mem_rl rfl).mp h) with h0 | ⟨ha, hc, x, hpc, hx⟩
      · have h0' := (mem_rl (s := s) (e := .exit j) rfl).mpr h0
        have e0 := ih.ex hf0 hp0 j h0'
        have hle := (reach_invE r).le j h0
        cases step_stat hw hs j with
        | same h hnc => rw [stat_cleanup' h]; exact e0
        | call c ha hc hu h => have := ((reach_invDy r).dy hf0 j (.inr h0')).1; rw [hu] at this; cases this
        | new i g ha hi hj' h => omega
        | ret v ha hc hpc h => rw [stat_cleanup' h]; exact e0
        | clean x q ha hc hpc hq h => rw [hq] at e0; cases e0
        | genRel x y ha hc hpc h => rw [stat_cleanup' h]; exact e0
      · subst ha
        have hcl : (s'.co j).cleanup = (s.co j).cleanup := by
          rw [hx]; exact stat_cleanup' (by simp)
        rw [hcl]
        have hes' : es = [.exit j] := by
          rw [hx, rl_exitNotify] at hes
          exact (List.append_cancel_right (bs := rl s) (by rw [← hes]; rfl))
        cases x with
        | true =>
          subst hes'
          cases hr with
          | tau i hc' _ h =>
            rw [hc] at hc'; cases hc'
            cases h with
            | exit a hp' hq => rw [hpc] at hp'; cases hp'; exact hq rfl
        | false =>
          have hd : dying j (rl s) = false := by
            cases hd : dying j (rl s) with
            | false => rfl
            | true => exact absurd hpc ((reach_invDy r).dy hf0 j (.inl hd)).2
          have h1 := hp [] (rl s) j (by rw [hes, hes']; rfl) hd
          have h2 := ih.eq hp0 j (cur_le hw hc).2
          rw [h1, ran_alive hd] at h2
          simpa using h2
    · have hp0 := hP hp
      rcases step_pool hs p h with ⟨q, hq, e⟩ | ⟨i, x, hc, hpc, e⟩
      · rw [← e]; exact ih.po hp0 q hq
      · rw [e]
        exact ih.ex hf0 hp0 i ((mem_rl rfl).mpr ((reach_invE r).pp i (by rw [hpc]; rfl)))

theorem paired_rl {s : S} (h : Paired s.log) : Paired (rl s) := by
  intro x b i e hd
  obtain ⟨x', y', e1, e2, e3⟩ := List.filter_eq_append_iff.mp e
  obtain ⟨l1, l2, e4, e5, e6, e7⟩ := List.filter_eq_cons_iff.mp e3
  subst e7
  rw [handlers_rl]
  rw [dying_rl] at hd
  refine h (x' ++ l1) l2 i (by rw [e1, e4]; simp) hd

/-- the handlers that ran are the ones that were pushed last -/
theorem ran_prefix {ok} {s : S} (r : Reach ok s) (hp : Paired s.log) {i : Nat} (hi : i ≤ s.sco.nextId) : ran i s.log <+: handlers i s.log := by
  have := (reach_invCl r).eq (paired_rl hp) i hi
  unfold rl at this
  rw [ran_rl, handlers_rl] at this
  exact ⟨_, this⟩
theorem ran_all {ok} {s : S} (r : Reach ok s) (hf : s.fault = false) (hp : Paired s.log) {i : Nat} (he : .exit i ∈ s.log) : ran i s.log = handlers i s.log := by
  have h1 := (reach_invCl r).eq (paired_rl hp) i ((reach_invE r).le i he)
  have h2 := (reach_invCl r).ex hf (paired_rl hp) i ((mem_rl rfl).mpr he)
  rw [h2] at h1
  unfold rl at h1
  rw [ran_rl, handlers_rl, List.append_nil] at h1
  exact h1

end Neco.Rt
