import Verif.Proof.RtRef3
import Verif.Proof.RtCase2
/-!
# No undefined behaviour
-/
namespace Neco.Rt
open Neco.Err

theorem recvNow_fault {s t : S} {c r : Nat} {ch : Chan} {m : Msg} {o : Option Nat} (h : recvNow s c r ch = some (m, o, t))
    (hq : ch.qrecv = false ∨ ch.buf ≠ [] → ∀ n ∈ s.lists (.chanQ c), ∃ j, n = .co j) : t.fault = s.fault := by
  unfold recvNow at h
  split at h
  · rename_i m' buf hb
    split at h
    · simp at h; obtain ⟨_, _, rfl⟩ := h; rfl
    · simp at h; obtain ⟨_, _, rfl⟩ := h; rfl
    · rename_i e
      obtain ⟨j, hj⟩ := hq (.inr (by rw [hb]; simp)) _ (by rw [e]; exact List.mem_cons_self)
      cases hj
  · split at h
    · cases h
    rename_i n q e
    split at h
    · cases h
    rename_i hr
    split at h
    · simp at h; obtain ⟨_, _, rfl⟩ := h; rfl
    · obtain ⟨j, hj⟩ := hq (.inl (by simpa using hr)) _ (by rw [e]; exact List.mem_cons_self)
      cases hj

theorem chanRecv_fault {s : S} {i c : Nat} {t : Bool} {dl : Int} {ch : Chan} (hc : s.chan c = some ch)
    (hq : ch.qrecv = false ∨ ch.buf ≠ [] → ∀ n ∈ s.lists (.chanQ c), ∃ j, n = .co j) : (chanRecv s i c t dl).fault = s.fault := by
  unfold chanRecv; rw [hc]; dsimp only
  (repeat' split) <;> first | rfl | (simp; done) | skip
  rename_i h
  simp [recvNow_fault h hq]

theorem chanSelect_fault {s : S} {i : Nat} {cs : List Nat} {t : Bool} {dl : Int} (hc : ∀ c ∈ cs, ∃ ch, s.chan c = some ch)
    (hq : ∀ c ch, s.chan c = some ch → ch.qrecv = false ∨ ch.buf ≠ [] → ∀ n ∈ s.lists (.chanQ c), ∃ j, n = .co j) : (chanSelect s i cs dl t).fault = s.fault := by
  unfold chanSelect
  split
  · rename_i hx
    simp only [List.any_eq_true] at hx
    obtain ⟨c, h1, h2⟩ := hx
    obtain ⟨ch, e⟩ := hc c h1
    rw [e] at h2; cases h2
  split
  · rfl
  split
  · rename_i k c hsc
    obtain ⟨ch, e, hcond, _⟩ := selScan_some hsc
    rw [e]; dsimp only
    split
    · rfl
    split
    · rename_i h
      simp [recvNow_fault h (hq c ch e)]
    · rename_i hrc _ hn
      exfalso
      unfold recvNow at hn
      rcases hcond with ⟨h1, h2⟩ | h1 | h1
      · split at hn
        · split at hn <;> cases hn
        · split at hn
          · rename_i e; exact h1 e
          · rw [if_neg (by simp [h2])] at hn
            split at hn <;> cases hn
      · split at hn
        · split at hn <;> cases hn
        · rename_i e; exact h1 e
      · exact hrc h1
  · split
    · rfl
    · simp

/-- only coroutines are queued on a channel that has messages or where senders wait -/
theorem queue_co {ok} {s : S} (r : Reach ok s) (hf : s.fault = false) {c : Nat} {ch : Chan} (hc : s.chan c = some ch) (h : ch.qrecv = false ∨ ch.buf ≠ []) :
    ∀ n ∈ s.lists (.chanQ c), ∃ j, n = .co j := by
  intro n hn
  have hk := ((reach_invC r).ok hf c).2 ch hc
  have hr : ch.qrecv = false := by
    rcases h with h | h
    · exact h
    · cases e : ch.qrecv with
      | false => rfl
      | true => exact absurd (hk.emp e (fun x => by rw [x] at hn; cases hn)) h
  cases n with
  | co j => exact ⟨j, rfl⟩
  | case j idx =>
    have h1 := hk.snd hr _ hn
    have h2 := (reach_invL r).pl _ _ hn
    simp only [place] at h2
    rw [h2.1] at h1; cases h1

theorem chanRelease_fault {s : S} {c : Nat} {ch : Chan} (hc : s.chan c = some ch) (hq : ch.rc - 1 < 0 → s.lists (.chanQ c) = []) : (chanRelease s c).fault = s.fault := by
  unfold chanRelease; rw [hc]; dsimp only; split
  · rename_i h; simp [hq h]
  · rfl

theorem cleanup_handlers {ok} {s : S} (r : Reach ok s) (hf : s.fault = false) (hp : Paired s.log) {i : Nat} (hc : s.sco.cur = some i) (hu : (s.co i).pc = .user) :
    (s.co i).cleanup = handlers i s.log := by
  have := (reach_invCl r).eq (paired_rl hp) i (cur_le (reach_scoWF r) hc).2
  rw [show rl s = s.log.filter Ev.rare from rfl, ran_rl, handlers_rl, ran_alive (blk_alive r hf (by rw [hu]; rfl))] at this
  simpa using this

/-- a call that keeps the rules is not undefined -/
theorem call_nofault {ok} {s s' : S} {c : Call} (r : Reach ok s) (h : InvRf s) (hp : Paired s.log) (hl : Legal s (.call c)) (hs : step s (.call c) = some s') : s'.fault = false := by
  have hf := step_nofault hs
  obtain ⟨i, hc, hu, hn, rfl⟩ := step_call hs
  obtain ⟨l1, l2, l3, l4⟩ := (hl i hc).1 c rfl
  have ex : ∀ k ∈ names c, ∃ ch, (callSt s i c).chan k = some ch := fun k hk => h.chan (l1 k hk)
  have hq : ∀ k ch, (callSt s i c).chan k = some ch → ch.qrecv = false ∨ ch.buf ≠ [] → ∀ n ∈ (callSt s i c).lists (.chanQ k), ∃ j, n = .co j :=
    fun k ch e => queue_co r hf e
  have hf0 : (callSt s i c).fault = false := hf
  have hgen : ((callSt s i c).co i).gen = (s.co i).gen := callSt_field Co.gen (by intros; rfl) ..
  have hcl : ((callSt s i c).co i).cleanup = (s.co i).cleanup := callSt_field Co.cleanup (by intros; rfl) ..
  have hwg : (callSt s i c).wg = s.wg := rfl
  have hch : (callSt s i c).chan = s.chan := rfl
  have hli : (callSt s i c).lists = s.lists := rfl
  generalize callSt s i c = t at *
  rw [← hf0]
  cases c <;> simp only [doCall]
  case chRetain k => obtain ⟨ch, e⟩ := ex k (by simp [names]); rw [e]; rfl
  case chRelease k =>
    obtain ⟨ch, e⟩ := ex k (by simp [names])
    rw [retv_fault]
    refine chanRelease_fault e (fun hx => ?_)
    rw [hch] at e
    obtain ⟨g1, g2, g3⟩ := h.rc k ch e
    have hpos := l1 k (by simp [names])
    have hno : ∀ i, (s.co i).gen ≠ some k := fun i hi => by have := g2 ⟨i, hi⟩; omega
    have := g3 hno
    rw [hli]
    exact queue_nil r hf (l2 k rfl (by omega)) (fun i hi => absurd hi (hno i))
  case send k m dl => obtain ⟨ch, e⟩ := ex k (by simp [names, uses]); exact chanSend_fault e
  case bcast k m => obtain ⟨ch, e⟩ := ex k (by simp [names, uses]); unfold chanBcast; rw [e]; dsimp only; split <;> simp
  case recv k dl => obtain ⟨ch, e⟩ := ex k (by simp [names, uses]); exact chanRecv_fault e (hq k ch e)
  case tryrecv k => obtain ⟨ch, e⟩ := ex k (by simp [names, uses]); exact chanRecv_fault e (hq k ch e)
  case close k => obtain ⟨ch, e⟩ := ex k (by simp [names, uses]); unfold chanClose; rw [e]; dsimp only; split <;> simp
  case select cs dl => exact chanSelect_fault (fun c hc => ex c (by simpa [names, uses] using hc)) hq
  case tryselect cs => exact chanSelect_fault (fun c hc => ex c (by simpa [names, uses] using hc)) hq
  case chCase k => obtain ⟨ch, e⟩ := ex k (by simp [names, uses]); unfold chanCase; rw [e]; dsimp only; split <;> rfl
  case genYield m dl =>
    unfold doGenYield; split
    · rfl
    · rename_i g hg
      rw [hgen] at hg
      obtain ⟨ch, e⟩ := h.genChan hg
      exact chanSend_fault (by rw [hch]; exact e)
  case wgAdd w d =>
    have := l3 w d rfl
    unfold wgAdd; dsimp only
    rw [hwg, reach_invWc r hf w, if_neg (by omega)]
    split <;> rfl
  case cpop x =>
    have := l4 x rfl
    unfold doCpop
    rw [hcl, cleanup_handlers r hf hp hc hu]
    split
    · contradiction
    · split <;> rfl
  all_goals simp

/-- the library itself does nothing undefined -/
theorem tau_nofault {ok} {s s' : S} {i : Nat} (r : Reach ok s) (hf : s.fault = false) (h : InvRf s) (hc : s.sco.cur = some i) (hs : tauCo s i = some s') : s'.fault = false := by
  have hft := (reach_invN r hf i).ft
  have alive : (s.co i).pc.exiting = false → ∀ {c k}, (s.co i).call = c → k ∈ uses c → ∃ ch, s.chan k = some ch := by
    intro hx c k hcl hk
    refine h.chan (h.us k ⟨i, c, (pending_call r).mpr ⟨hcl, fun e => by subst e; simp [uses] at hk⟩, hk, blk_alive r hf hx⟩)
  rw [← hf]
  unfold tauCo at hs
  split at hs
  case h_1 => cases hs
  case h_2 => cases hs
  case h_3 => cases hs
  case h_4 => cases hs; simp
  case h_5 => (repeat' split at hs) <;> cases hs <;> simp
  case h_6 => cases hs; simp
  case h_7 a hp =>
    cases hs
    cases a with
    | ret v => rfl
    | condEnq =>
      unfold fits at hft; rw [hp] at hft; dsimp only at hft
      obtain ⟨v, m, dl, e⟩ := hft
      simp only [doAft, e]; simp
    | genRel x y =>
      obtain ⟨g, hg⟩ := Option.ne_none_iff_exists'.mp (reach_rel r i (by rw [hp]; rfl))
      simp only [doAft, hg, setPc_fault, upd_fault]
      obtain ⟨ch, e⟩ := h.genChan hg
      refine chanRelease_fault e (fun hx => ?_)
      obtain ⟨g1, g2, g3⟩ := h.rc g ch e
      have := g2 ⟨i, hg⟩
      refine queue_nil r hf (fun hu => ?_) (fun j hj hb => ?_)
      · have := h.us g hu; omega
      · have := gen_inj r hj hg; subst this
        rw [hp] at hb; cases hb
    | exitTail x y => simp only [doAft]; split <;> simp
    | fin a => rfl
  case h_8 k c v hp =>
    cases hs
    have : ∃ ch, s.chan c = some ch := by
      obtain ⟨cs, h1, h2⟩ := reach_found r hf i (cur_le (reach_scoWF r) hc).2 k c v hp
      refine alive (by rw [hp]; rfl) rfl (k := c) ?_
      have := List.mem_of_getElem? h2
      revert h1; cases (s.co i).call <;> simp [selCs] <;> rintro rfl <;> simpa [uses] using this
    obtain ⟨ch, e⟩ := this
    simp [e]
  case h_9 b hp =>
    cases hs
    cases b
    case recv =>
      have : ∀ u : S, u.chan = s.chan → ((u.co i).call) = (s.co i).call → recvGone u i = false := by
        intro u h1 h2
        unfold fits at hft; rw [hp] at hft; dsimp only [BlkC] at hft
        obtain ⟨dl, k, e⟩ := hft
        obtain ⟨ch, e2⟩ := alive (by rw [hp]; rfl) e (k := k) (by simp [uses])
        unfold recvGone; rw [h2, e]; simp [h1, e2]
      simp only [afterBlk]
      (repeat' split)
      · simp
      · simp only [retv_fault, upd_fault, dlClear_fault]
        rw [this _ (by simp) (by simp [preBlk, (unpause_keep s i).2.2.2.1])]
        simp
      · simp
    all_goals simp only [afterBlk]; (repeat' split) <;> simp
  case h_10 hp =>
    unfold fits at hft; rw [hp] at hft; dsimp only at hft
    obtain ⟨t, dl, e⟩ := hft
    rw [e] at hs; cases hs; simp
  case h_11 hp =>
    unfold fits at hft; rw [hp] at hft; dsimp only at hft
    obtain ⟨v, m, dl, e, _⟩ := hft
    rw [e] at hs; cases hs; simp
  case h_12 => cases hs; rfl
  case h_13 a hp =>
    have ex : ∀ a, (exitNotify s i a).fault = s.fault := by
      intro a
      unfold exitNotify
      extract_lets t1 qc t2 qj t3 sched
      have hch : t3.chan = s.chan := by simp [t3, t2, t1]
      have hco : (t3.co i).gen = (s.co i).gen := by simp [t3, t2, t1]
      have hfa : t3.fault = s.fault := by simp [t3, t2, t1]
      split
      · rw [setPc_fault, hfa]
      rename_i g hg
      obtain ⟨ch, e⟩ := h.genChan (by rw [← hco]; exact hg)
      rw [hch, e]; dsimp only
      split <;> simp [hfa]
    cases hs; unfold doExit; (repeat' split) <;> first | rfl | exact ex _

theorem step_legal_nofault {ok} {s s' : S} {a : Act} (r : Reach ok s) (h : InvRf s) (hp : Paired s.log) (hl : Legal s a) (hs : step s a = some s') : s'.fault = false := by
  have hf := step_nofault hs
  have hs0 := hs
  cases a with
  | call c => exact call_nofault r h hp hl hs
  | tau =>
    unfold Rt.step at hs
    split at hs
    · cases hs
    simp only at hs
    split at hs
    · rename_i i hc; exact tau_nofault r hf h hc hs
    · unfold tauMain at hs
      (repeat' split at hs) <;> cases hs <;> simp [hf]
  | _ =>
    unfold Rt.step at hs
    split at hs
    · cases hs
    simp only at hs
    (repeat' split at hs) <;> cases hs <;> first | exact hf | (simp [hf]; done) | (simp; split <;> simp [hf])

theorem step_exitNew {s s' : S} {a : Act} (hs : step s a = some s') :
    (∃ es, s'.log = es ++ s.log ∧ ∀ k, .exit k ∉ es) ∨ (a = .tau ∧ ∃ k x, s.sco.cur = some k ∧ (s.co k).pc = .exitRun x ∧ s' = exitNotify s k x) := by
  obtain ⟨es, h1, h2⟩ := step_adds hs
  by_cases hx : ∀ k, .exit k ∉ es
  · exact .inl ⟨es, h1, hx⟩
  simp only [Classical.not_forall, Classical.not_not] at hx
  obtain ⟨k, h⟩ := hx
  have := h2 _ h
  cases a <;> simp only [stepKinds, Ev.kind] at this <;> try (simp at this; done)
  · rename_i c; cases c <;> simp [callKinds] at this
  · split at this
    · rename_i i hc
      unfold step at hs
      split at hs
      · cases hs
      simp only [hc] at hs
      cases hp : (s.co i).pc <;> rw [hp] at this <;> simp [pcKinds] at this
      case blk b => cases b <;> simp [pcKinds] at this
      rename_i x
      unfold tauCo at hs; rw [hp] at hs; simp only at hs; cases hs
      revert h1; unfold doExit
      split
      · split
        · intro h1; left
          exact ⟨[_], rfl, by simp⟩
        · exact fun _ => .inr ⟨rfl, i, x, hc, hp, rfl⟩
      · exact fun _ => .inr ⟨rfl, i, x, hc, hp, rfl⟩
    · cases hm : s.main <;> rw [hm] at this <;> simp [mainKinds] at this

theorem paired_quiet {es l : List Ev} (h : Paired l) (he : ∀ k, .exit k ∉ es) : Paired (es ++ l) := by
  intro x b i e
  rcases List.append_eq_append_iff.mp e with ⟨y, e1, e2⟩ | ⟨y, e1, e2⟩
  · exact h y b i e2
  · cases y with
    | nil => exact h [] b i (by simpa using e2.symm)
    | cons z y =>
      simp at e2
      exact absurd (by rw [e1, e2.1]; simp) (he i)

theorem paired_exit {l : List Ev} {i : Nat} (h : Paired l) (hi : dying i l = false → handlers i l = []) : Paired (.exit i :: l) := by
  intro x b j e
  cases x with
  | nil => simp at e; obtain ⟨rfl, rfl⟩ := e; exact hi
  | cons y x => simp at e; exact h x b j e.2

theorem step_handlers {s s' : S} {a : Act} (hs : step s a = some s') {j : Nat} (h : ∀ c, a = .call c → s.sco.cur ≠ some j) : handlers j s'.log = handlers j s.log := by
  by_cases ha : ∃ c, a = .call c
  · obtain ⟨c, rfl⟩ := ha
    obtain ⟨i, hc, _⟩ := step_call hs
    obtain ⟨fs, h1, h2⟩ := call_log hs hc
    rw [h1, handlers_other (fun c' hm => callKinds_call c (h2 _ hm)), handlers_cons (fun c' e => by cases e; exact h c rfl hc)]
  · obtain ⟨es, h1, h2⟩ := step_adds hs
    rw [h1, handlers_other (fun c hm => stepKinds_call (fun c hc => ha ⟨c, hc⟩) (h2 _ hm))]

structure InvPr (s : S) : Prop where
  pr : Paired s.log
  ex : ∀ j, (s.co j).pc = .exitRun false → handlers j s.log = []

theorem InvPr.step {ok} {s s' : S} {a : Act} (h : InvPr s) (r : Reach ok s) (hl : Legal s a) (hs : step s a = some s') : InvPr s' := by
  constructor
  · rcases step_exitNew hs with ⟨es, h1, h2⟩ | ⟨_, k, x, hc, hp, rfl⟩
    · rw [h1]; exact paired_quiet h.pr h2
    · obtain ⟨e1, e2, e3, e4, e5⟩ := exitNotify_log s k x
      rw [e3, ← List.append_assoc]
      refine paired_quiet (paired_exit h.pr (fun hd => ?_)) (fun j hj => ?_)
      · cases x with
        | false => exact h.ex k hp
        | true => have := (reach_invDy r).ru k hp; rw [show rl s = s.log.filter Ev.rare from rfl, dying_rl, hd] at this; cases this
      · rcases List.mem_append.mp hj with hj | hj
        · obtain ⟨_, hj⟩ := e5 _ hj; cases hj
        · obtain ⟨_, hj⟩ := e4 _ hj; cases hj
  · intro j hj
    cases step_pcs r hs j with
    | same h0 =>
      rw [h0] at hj
      rw [step_handlers hs (fun c ha hc => by subst ha; have := (step_call_of hs hc).1; rw [hj] at this; cases this)]
      exact h.ex j hj
    | new ha hj' h0 => rw [h0] at hj; cases hj
    | call c ha hc hu h0 =>
      exfalso
      have hw := (cur_le (reach_scoWF r) hc).2
      have hu' : ((callSt s j c).co j).pc = .user := by rw [callSt_field Co.pc (by intros; rfl)]; exact hu
      by_cases hx : c = .exit
      · subst hx; rw [h0] at hj; simp [doCall, setPc_co] at hj
      · have := doCall_run (callSt s j c) j c hx (by rw [hu']; rfl) hw
        rw [← h0, hj] at this; cases this
    | finish ha hc hu h0 =>
      rw [step_handlers hs (fun c hx => by rw [ha] at hx; cases hx)]
      exact (hl j hc).2 ha
    | submit ha hc hp h0 => rw [h0] at hj; cases hj
    | tau ha hc ht =>
      rw [step_handlers hs (fun c hx => by rw [ha] at hx; cases hx)]
      rcases tauCo_run ht hj with h1 | ⟨h1, _⟩
      · exact h.ex j h1
      · cases h1

/-- nothing undefined in a program that keeps the rules -/
theorem reach_legal {s : S} (r : Reach Legal s) : s.fault = false ∧ InvRf s ∧ InvPr s := by
  induction r with
  | init a e => 
    refine ⟨rfl, ?_, ?_⟩
    · refine ⟨fun k ch h => (by cases h), fun k _ => ⟨rfl, fun i => ?_⟩, fun k ⟨j, c, h, _⟩ => ?_⟩
      · simp only [init]; split <;> simp
      · cases (pending_call (ok := any) (.init a e)).mp h with
        | intro h1 h2 => exfalso; revert h1; simp only [init]; split <;> exact fun h => h2 h.symm
    · constructor
      · intro x b i h
        have : (init a e).log = [.start none 1] := rfl
        rw [this] at h
        cases x with
        | nil => simp at h
        | cons y x => simp at h
      · intro j h; exfalso; revert h; simp only [init]; split <;> simp
  | @step s s' r a hl hs ih =>
    have hf := step_legal_nofault r ih.2.1 ih.2.2.pr hl hs
    exact ⟨hf, ih.2.1.step r hl hs hf, ih.2.2.step r hl hs⟩

end Neco.Rt
