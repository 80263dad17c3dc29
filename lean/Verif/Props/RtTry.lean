import Verif.Proof.RtRecv
import Verif.Props.RtLock
import Verif.Props.RtChan
import Verif.Props.RtSelect
/-!
# Calls that need not wait (C12, C13, C17, C21, for every execution)

`b` is the history at the moment the call in question was made.  Nothing is asked of the coroutine or of its earlier calls: also if it was woken
without cause before, a call that finds its answer when it is made gives that answer.
-/
namespace Neco.Rt
open Neco.Err

theorem recv_now {ok} {s : S} (r : Reach ok s) {i c : Nat} {cl : Call} {v : Int} {d : Msg} {b : List Ev}
    (h : Returns s i cl v d) (hb : s.log = since i s.log ++ .call i cl :: b) {tr : Bool} {dl : Int} (he : ∀ t, doCall t i cl = chanRecv t i c tr dl) (hn : tr = true ∨ content c b ≠ []) :
    (v = OK ∧ (∃ k rest, content c b = (k, d) :: rest) ∧ (since i s.log).filter (delivTo i) = [.take c i d]) ∨
    ((v = CLOSED ∨ v = EMPTY) ∧ content c b = [] ∧ (since i s.log).filter (delivTo i) = []) ∨
    (v = CANCELED ∧ (since i s.log).filter (delivTo i) = []) := by
  obtain ⟨s0, s1, es, fs, r0, e0, hcur, hu, hs, e1, hf0, hf1, hl, hsi, hl1, ho, hr⟩ := returns_from' r h hb
  subst e0
  have x := call_ctx r0 hf0 hu cl
  rw [he] at e1; subst e1
  have hlg : (callSt s0 i cl).log = .call i cl :: s0.log := rfl
  have out : ∀ w, ((chanRecv (callSt s0 i cl) i c tr dl).co i).pc = .ret w → v = w ∧ es.filter (delivTo i) = [] ∧ d = ((chanRecv (callSt s0 i cl) i c tr dl).co i).rdat :=
    fun w hw => ⟨(hr w hw).1, (ho w (by rw [hw]; rfl)).2, (hr w hw).2⟩
  have quiet : ∀ w, ((chanRecv (callSt s0 i cl) i c tr dl).co i).pc = .ret w → w ≠ OK → v = w ∧ (since i s.log).filter (delivTo i) = [] := by
    intro w hw hne
    obtain ⟨h1, h2, _⟩ := out w hw
    refine ⟨h1, ?_⟩
    rcases chanRecv_log x hf1 with ⟨h3, _⟩ | ⟨_, h3⟩
    · rw [hw] at h3; cases h3; exact absurd rfl hne
    · rw [h3, hlg] at hl1
      have : fs = [] := by
        have := congrArg List.length hl1; simp at this
        exact this
      rw [hsi, this, List.append_nil, h2]
  obtain ⟨ch, hch, ⟨_, e, e2⟩ | ⟨_, _, e2⟩ | ⟨_, _, k, m, rest, e, e2, e3⟩ | ⟨_, _, e, _, e2⟩ | ⟨_, _, e, e2, _⟩⟩ := chanRecv_out x hf1
  · obtain ⟨h1, h2⟩ := quiet _ e2 (by decide)
    exact .inr (.inl ⟨.inl h1, e, h2⟩)
  · exact .inr (.inr (quiet _ e2 (by decide)))
  · left
    obtain ⟨h1, h2, h3⟩ := out _ e2
    rw [e3] at h3; subst h3
    refine ⟨h1, ⟨k, rest, e⟩, ?_⟩
    rcases chanRecv_log x hf1 with ⟨_, h4⟩ | ⟨h4, _⟩
    · rw [h4, hlg, e3] at hl1
      have : fs = [.take c i d] := (List.append_cancel_right (as := [Ev.take c i d]) (by exact hl1)).symm
      rw [hsi, this, List.filter_append, h2]; simp [delivTo]
    · exact absurd e2 h4
  · obtain ⟨h1, h2⟩ := quiet _ e2 (by decide)
    exact .inr (.inl ⟨.inr h1, e, h2⟩)
  · rcases hn with h | h
    · rw [h] at e2; cases e2
    · exact absurd e h

/-- `neco_chan_tryrecv` takes the oldest message the channel held when it was called, exactly that one, and returns `NECO_OK`; or the channel held
nothing, and it returns `NECO_EMPTY` or `NECO_CLOSED`; or it was canceled.  Unless it returns `NECO_OK` it took nothing. -/
theorem C12_tryrecv {ok} {s : S} (r : Reach ok s) {i c : Nat} {v : Int} {d : Msg} {b : List Ev}
    (h : Returns s i (.tryrecv c) v d) (hb : s.log = since i s.log ++ .call i (.tryrecv c) :: b) :
    (v = OK ∧ (∃ k rest, content c b = (k, d) :: rest) ∧ (since i s.log).filter (delivTo i) = [.take c i d]) ∨
    ((v = CLOSED ∨ v = EMPTY) ∧ content c b = [] ∧ (since i s.log).filter (delivTo i) = []) ∨
    (v = CANCELED ∧ (since i s.log).filter (delivTo i) = []) :=
  recv_now r h hb (fun _ => rfl) (.inl rfl)

/-- `neco_chan_recv` on a channel that holds something takes the oldest message, exactly that one, unless it is canceled -/
theorem C12_recv_now {ok} {s : S} (r : Reach ok s) {i c : Nat} {dl v : Int} {d : Msg} {b : List Ev}
    (h : Returns s i (.recv c dl) v d) (hb : s.log = since i s.log ++ .call i (.recv c dl) :: b) (hc : content c b ≠ []) :
    (v = OK ∧ (∃ k rest, content c b = (k, d) :: rest) ∧ (since i s.log).filter (delivTo i) = [.take c i d]) ∨
    (v = CANCELED ∧ (since i s.log).filter (delivTo i) = []) := by
  rcases recv_now r h hb (tr := false) (dl := dl) (fun _ => rfl) (.inr hc) with h | ⟨_, h, _⟩ | h
  · exact .inl h
  · exact absurd h hc
  · exact .inr h

/-- the coroutine a message was handed to inside `neco_chan_tryrecv` returns `NECO_OK` with exactly that message -/
theorem C13_tryrecv {ok} {s : S} (r : Reach ok s) {i c k : Nat} {v : Int} {d m : Msg} (h : Returns s i (.tryrecv c) v d) (hm : .take k i m ∈ since i s.log) :
    k = c ∧ v = OK ∧ d = m := by
  obtain ⟨b, hb⟩ := returns_call r h
  have hin : .take k i m ∈ (since i s.log).filter (delivTo i) := List.mem_filter.mpr ⟨hm, by simp [delivTo]⟩
  rcases C12_tryrecv r h hb with ⟨h1, _, h2⟩ | ⟨_, _, h2⟩ | ⟨_, h2⟩ <;> rw [h2] at hin
  · simp at hin; exact ⟨hin.1, h1, hin.2.symm⟩
  · cases hin
  · cases hin

/-! ## Mutexes -/

/-- the mutex can be had now: nobody holds it; or, for reading, only readers hold it and nobody is in line -/
def Grantable (s : S) (m : Nat) (rd : Bool) : Prop :=
  if rd = true then queue s m = [] ∧ ∀ e ∈ holders m s.log, e.2 = true else holders m s.log = []

/-- the call that asks for mutex `m` without waiting -/
def tryCall (m : Nat) (rd : Bool) : Call := if rd = true then .tryrdlock m else .trylock m

theorem locked_iff {ok} {s : S} (r : Reach ok s) (hd : Disciplined s.log) (m : Nat) : (s.mu m).locked = true ↔ holders m s.log ≠ [] := by
  have o := reach_invLk r hd m
  unfold LockOk at o
  cases hl : (s.mu m).locked with
  | false => simp [(o.free hl).1]
  | true =>
    simp only [true_iff]
    intro hz
    by_cases h0 : (s.mu m).rlocked = 0
    · obtain ⟨j, e⟩ := o.wr hl h0
      rw [hz] at e; cases e
    · have := (o.rd h0).2.1
      rw [hz] at this; simp at this; omega

theorem muQ_nil {s : S} {m : Nat} : queue s m = [] ↔ s.lists (.muQ m) = [] := by unfold queue; exact List.map_eq_nil_iff

theorem rdBusy_iff {ok} {s : S} (r : Reach ok s) (hd : Disciplined s.log) (m : Nat) : rdBusy s m = false ↔ Grantable s m true := by
  have o := reach_invLk r hd m
  unfold LockOk at o
  unfold rdBusy Grantable
  simp only [if_true, muQ_nil]
  cases hq : s.lists (.muQ m) with
  | cons a q => simp
  | nil =>
    simp only [List.isEmpty_nil, Bool.not_true, Bool.false_or, true_and]
    cases hl : (s.mu m).locked with
    | false => simp [(o.free hl).1]
    | true =>
      by_cases h0 : (s.mu m).rlocked = 0
      · obtain ⟨j, e⟩ := o.wr hl h0
        simp [h0, e]
      · have hb : ((s.mu m).rlocked == 0) = false := beq_false_of_ne h0
        rw [hb]
        simp only [Bool.false_and, true_iff]
        exact (o.rd h0).2.2

theorem free_iff {ok} {s : S} (r : Reach ok s) (hd : Disciplined s.log) (m : Nat) : (s.mu m).locked = false ↔ Grantable s m false := by
  have := locked_iff r hd m
  unfold Grantable
  cases hl : (s.mu m).locked <;> simp_all

/-- the variants of the lock calls that do not wait get the mutex exactly if it can be had now, and otherwise say `NECO_BUSY` and leave every mutex
and every line as they are.  They return at once, in the next step, and nobody else runs. -/
theorem C21_try {ok} {s s' : S} (r : Reach ok s) (hd : Disciplined s.log) {i m : Nat} {rd : Bool} (hc : Running s i) (hs : step s (.call (tryCall m rd)) = some s') :
    Running s' i ∧ (∀ k, queue s' k = queue s k) ∧
    ((Grantable s m rd ∧ s'.log = .grant m i rd :: .call i (tryCall m rd) :: s.log ∧ ∃ d, Returns s' i (tryCall m rd) OK d) ∨
     (¬ Grantable s m rd ∧ s'.log = .call i (tryCall m rd) :: s.log ∧ s'.mu = s.mu ∧ ∃ d, Returns s' i (tryCall m rd) BUSY d)) := by
  obtain ⟨hu, _, rfl⟩ := step_call_of hs hc
  have hg := step_guard hs
  have hq : ∀ t : S, (∀ j, (t.co j).rlocked = (s.co j).rlocked) → t.lists = s.lists → ∀ k, queue t k = queue s k := by
    intro t h1 h2 k; unfold queue; rw [h2]; simp only [h1]
  cases rd with
  | false =>
    simp only [tryCall, Bool.false_eq_true, if_false, doCall, muTrylock]
    show Running (if (s.mu m).locked = true then _ else _) i ∧ _
    cases hl : (s.mu m).locked with
    | true =>
      have : (callSt s i (.trylock m)).mu m = s.mu m := rfl
      simp only [this, hl, if_true]
      refine ⟨hc, hq _ (fun j => by simp [callSt, retv, setPc, upd_co]; split <;> (try split) <;> simp_all) (by simp [callSt]), .inr ⟨?_, by simp [callSt], by simp [callSt], ?_⟩⟩
      · rw [← free_iff r hd, hl]; simp
      · exact returns_of_ret hg hc (by simp [callSt]) (by simp [callSt]) (by simp [callSt]) (pc_retv ..) (by simp [retv, setPc, upd_co, callSt]) (.inl (by decide))
    | false =>
      have : (callSt s i (.trylock m)).mu m = s.mu m := rfl
      simp only [this, hl, Bool.false_eq_true, if_false]
      refine ⟨hc, hq _ (fun j => by simp [callSt, retv, setPc, setMu, note, upd_co]; split <;> (try split) <;> simp_all) (by simp [callSt]), .inl ⟨?_, by simp [callSt], ?_⟩⟩
      · rw [← free_iff r hd, hl]
      · exact returns_of_ret hg hc (by simp [callSt]) (by simp [callSt]) (by simp [callSt]) (pc_retv ..) (by simp [retv, setPc, upd_co, callSt]) (.inl (by decide))
  | true =>
    simp only [tryCall, if_true, doCall, muTryrdlock]
    have hb : rdBusy (callSt s i (.tryrdlock m)) m = rdBusy s m := rfl
    simp only [hb]
    cases hl : rdBusy s m with
    | true =>
      simp only [if_true]
      refine ⟨hc, hq _ (fun j => by simp [callSt, retv, setPc, upd_co]; split <;> (try split) <;> simp_all) (by simp [callSt]), .inr ⟨?_, by simp [callSt], by simp [callSt], ?_⟩⟩
      · rw [← rdBusy_iff r hd, hl]; simp
      · exact returns_of_ret hg hc (by simp [callSt]) (by simp [callSt]) (by simp [callSt]) (pc_retv ..) (by simp [retv, setPc, upd_co, callSt]) (.inl (by decide))
    | false =>
      simp only [Bool.false_eq_true, if_false]
      refine ⟨hc, hq _ (fun j => by simp [callSt, retv, setPc, setMu, note, upd_co]; split <;> (try split) <;> simp_all) (by simp [callSt]), .inl ⟨?_, by simp [callSt], ?_⟩⟩
      · rw [← rdBusy_iff r hd, hl]
      · exact returns_of_ret hg hc (by simp [callSt]) (by simp [callSt]) (by simp [callSt]) (pc_retv ..) (by simp [retv, setPc, upd_co, callSt]) (.inl (by decide))

theorem finishLock_queue {t : S} {i m : Nat} {rd : Bool} {dl : Int} {bk : Blk} (hf : Free t i) (h1 : (t.co i).canceled = false) (h2 : (t.co i).deadlined = false) (hcur : t.sco.cur = some i) :
    (finishLock t i m rd dl bk).log = t.log ∧ (finishLock t i m rd dl bk).mu = t.mu ∧ queue (finishLock t i m rd dl bk) m = queue t m ++ [(i, rd)] ∧
    (∀ k, k ≠ m → queue (finishLock t i m rd dl bk) k = queue t k) ∧ Blocked (finishLock t i m rd dl bk) i := by
  have hn : ∀ k n, n ∈ t.lists (.muQ k) → n.owner ≠ i := by
    intro k n h1 h2
    rcases hf _ n h1 h2 with h | h <;> cases h
  have hne : ∀ k, (t.lists (.muQ k)).filter (fun x => decide (x ≠ .co i)) = t.lists (.muQ k) := by
    intro k
    rw [List.filter_eq_self]
    intro n h
    have := hn k n h
    simp only [decide_eq_true_eq]
    rintro rfl
    exact this rfl
  have hm : ∀ k (f : Nat → Co), (∀ j, j ≠ i → f j = t.co j) → (t.lists (.muQ k)).map (fun n => (n.owner, (f n.owner).rlocked)) = queue t k := by
    intro k f hf
    unfold queue
    apply List.map_congr_left
    intro n h
    rw [hf _ (hn k n h)]
  generalize he : finishLock t i m rd dl bk = u
  unfold finishLock copause at he
  dsimp only at he
  rw [if_neg (by simp [push, rm, setList, upd_co, h1, h2])] at he
  have f1 : u.lists (.muQ m) = t.lists (.muQ m) ++ [.co i] := by
    rw [← he]; simp only [push, rm, setList, upd, if_true, hne]
  have f2 : ∀ k, k ≠ m → u.lists (.muQ k) = t.lists (.muQ k) := by
    intro k hk
    rw [← he]; simp only [push, rm, setList, upd, LName.muQ.injEq, if_neg hk, hne]
  have f3 : ∀ j, j ≠ i → u.co j = t.co j := by
    intro j hj
    rw [← he]; simp [push, rm, setList, upd, hj]
  have f4 : (u.co i).rlocked = rd := by
    rw [← he]; simp [push, rm, setList, upd]
  refine ⟨by rw [← he]; rfl, by rw [← he]; rfl, ?_, ?_, ?_⟩
  · unfold queue
    rw [f1, List.map_append, List.map_cons, List.map_nil]
    simp only [Node.owner.eq_1, f4]
    congr 1
    exact hm m _ f3
  · intro k hk
    unfold queue
    rw [f2 k hk]
    exact hm k _ f3
  · unfold Blocked
    rw [← he]
    simp only [push, rm, setList, upd]
    rw [pause_paused _ hcur]
    exact List.mem_cons_self

theorem dlCode_why {s : S} {i : Nat} {dl : Int} (h : dlCode s i dl ≠ OK) : (s.co i).canceled = true ∨ (s.co i).deadlined = true ∨ dl < s.clock := by
  unfold dlCode at h
  split at h
  · rename_i h'; exact .inl h'
  · split at h
    · rename_i h'
      rcases h' with h | h
      · exact .inr (.inl h)
      · exact .inr (.inr h.2)
    · exact absurd rfl h

/-- a call that asks for a mutex: it gets it at once if it can be had now (`NECO_OK` in the next step); if not, the caller is put at the end of the line
and sleeps; unless it was canceled before or the deadline has passed, and then nothing changes hands -/
theorem C22_ask {ok} {s s' : S} (r : Reach ok s) (hd : Disciplined s.log) {i m : Nat} {rd : Bool} {dl : Int} (hc : Running s i) (hs : step s (.call (lockCall m rd dl)) = some s') :
    (Grantable s m rd ∧ s'.log = .grant m i rd :: .call i (lockCall m rd dl) :: s.log ∧ (∀ k, queue s' k = queue s k) ∧ ∃ d, Returns s' i (lockCall m rd dl) OK d) ∨
    (¬ Grantable s m rd ∧ s'.log = .call i (lockCall m rd dl) :: s.log ∧ queue s' m = queue s m ++ [(i, rd)] ∧ (∀ k, k ≠ m → queue s' k = queue s k) ∧ s'.mu = s.mu ∧ Blocked s' i) ∨
    (((s.co i).canceled = true ∨ (s.co i).deadlined = true ∨ dl < s.clock) ∧ s'.log = .call i (lockCall m rd dl) :: s.log ∧ (∀ k, queue s' k = queue s k) ∧ s'.mu = s.mu) := by
  obtain ⟨hu, _, rfl⟩ := step_call_of hs hc
  have hg := step_guard hs
  have hL := reach_invL r
  have hfr : Free s i := hL.free (by rw [hu]; rfl)
  have hq : ∀ t : S, (∀ j, (t.co j).rlocked = (s.co j).rlocked) → t.lists = s.lists → ∀ k, queue t k = queue s k := by
    intro t h1 h2 k; unfold queue; rw [h2]; simp only [h1]
  generalize hcl : lockCall m rd dl = cl at *
  have hqd : ∀ k, queue (dlClear (callSt s i cl) i) k = queue s k :=
    hq _ (fun j => by simp [callSt, dlClear, upd_co]; split <;> (try split) <;> simp_all) (by simp [callSt])
  have hcan : ((dlClear (callSt s i cl) i).co i).canceled = false := by simp [dlClear, upd_co]
  have hdl : ((dlClear (callSt s i cl) i).co i).deadlined = false := by simp [dlClear, upd_co]
  have hlg : (dlClear (callSt s i cl) i).log = .call i cl :: s.log := rfl
  have hmu : (dlClear (callSt s i cl) i).mu = s.mu := rfl
  have hbz : rdBusy (dlClear (callSt s i cl) i) m = rdBusy s m := rfl
  have hfr' : Free (dlClear (callSt s i cl) i) i := hfr
  have hco : (callSt s i cl).clock = s.clock := rfl
  have stop : dlCode (callSt s i cl) i dl ≠ OK → (((s.co i).canceled = true ∨ (s.co i).deadlined = true ∨ dl < s.clock) ∧
      (retv (dlClear (callSt s i cl) i) i (dlCode (callSt s i cl) i dl)).log = .call i cl :: s.log ∧
      (∀ k, queue (retv (dlClear (callSt s i cl) i) i (dlCode (callSt s i cl) i dl)) k = queue s k) ∧ (retv (dlClear (callSt s i cl) i) i (dlCode (callSt s i cl) i dl)).mu = s.mu) := by
    intro h
    refine ⟨by simpa [callSt, upd_co] using dlCode_why h, rfl, fun k => ?_, rfl⟩
    rw [← hqd k]
    unfold queue
    apply List.map_congr_left
    intro n _
    simp [retv, setPc, upd_co]; split <;> simp_all
  have grant : ∀ x, Grantable s m rd → (Grantable s m rd ∧ (retv (note (setMu (dlClear (callSt s i cl) i) m x) (.grant m i rd)) i OK).log = .grant m i rd :: .call i cl :: s.log ∧
      (∀ k, queue (retv (note (setMu (dlClear (callSt s i cl) i) m x) (.grant m i rd)) i OK) k = queue s k) ∧
      ∃ d, Returns (retv (note (setMu (dlClear (callSt s i cl) i) m x) (.grant m i rd)) i OK) i cl OK d) := by
    intro x hx
    refine ⟨hx, rfl, fun k => ?_, ?_⟩
    · rw [← hqd k]
      unfold queue
      apply List.map_congr_left
      intro n _
      simp [retv, setPc, setMu, upd_co]; split <;> simp_all
    · exact returns_of_ret hg hc (by simp [callSt]) (by simp [callSt]) (by simp [callSt]) (pc_retv ..) (by simp [retv, setPc, upd_co, callSt, dlClear]) (.inl (by decide))
  have line : ∀ bk, ¬ Grantable s m rd → ¬ Grantable s m rd ∧ (finishLock (dlClear (callSt s i cl) i) i m rd dl bk).log = .call i cl :: s.log ∧
      queue (finishLock (dlClear (callSt s i cl) i) i m rd dl bk) m = queue s m ++ [(i, rd)] ∧
      (∀ k, k ≠ m → queue (finishLock (dlClear (callSt s i cl) i) i m rd dl bk) k = queue s k) ∧ (finishLock (dlClear (callSt s i cl) i) i m rd dl bk).mu = s.mu ∧
      Blocked (finishLock (dlClear (callSt s i cl) i) i m rd dl bk) i := by
    intro bk hx
    obtain ⟨h1, h2, h3, h4, h5⟩ := finishLock_queue (m := m) (rd := rd) (dl := dl) (bk := bk) hfr' hcan hdl hc
    exact ⟨hx, h1.trans hlg, by rw [h3, hqd], fun k hk => by rw [h4 k hk, hqd], h2.trans hmu, h5⟩
  cases rd with
  | false =>
    simp only [lockCall, Bool.false_eq_true, if_false] at hcl
    have e : doCall (callSt s i cl) i cl = muLock (callSt s i cl) i m dl := by rw [← hcl]; rfl
    rw [e]
    unfold muLock
    split
    · rename_i h; exact .inr (.inr (stop h))
    dsimp only
    rw [hmu]
    cases hl : (s.mu m).locked with
    | true =>
      rw [if_pos rfl]
      exact .inr (.inl (line _ (by rw [← free_iff r hd, hl]; simp)))
    | false =>
      rw [if_neg (by simp)]
      exact .inl (grant _ (by rw [← free_iff r hd, hl]))
  | true =>
    simp only [lockCall, if_true] at hcl
    have e : doCall (callSt s i cl) i cl = muRdlock (callSt s i cl) i m dl := by rw [← hcl]; rfl
    rw [e]
    unfold muRdlock
    split
    · rename_i h; exact .inr (.inr (stop h))
    dsimp only
    rw [hbz]
    cases hl : rdBusy s m with
    | true =>
      rw [if_pos rfl]
      exact .inr (.inl (line _ (by rw [← rdBusy_iff r hd, hl]; simp)))
    | false =>
      rw [if_neg (by simp)]
      exact .inl (grant _ (by rw [← rdBusy_iff r hd, hl]))

/-! ## Cases -/

/-- two messages are there, the older one is taken -/
example : ∃ s b, Reach any s ∧ Returns s 1 (.tryrecv 0) OK 7 ∧ s.log = since 1 s.log ++ .call 1 (.tryrecv 0) :: b ∧ content 0 b = [(1, 7), (1, 8)] := by
  obtain ⟨s, b, r, h, h1, h2⟩ := histA [.on 1 (.call (.chMake 2)), .on 1 (.call (.send 0 7 MAX)), .on 1 (.call (.send 0 8 MAX)), .on 1 (.call (.tryrecv 0))]
    (i := 1) (c := .tryrecv 0) (v := OK) (d := 7) (q := fun b => decide (content 0 b = [(1, 7), (1, 8)])) (by decide +kernel)
  exact ⟨s, b, r, h, h1, of_decide_eq_true h2⟩
/-- nothing there, and closed -/
example : ∃ s b, Reach any s ∧ Returns s 1 (.tryrecv 0) CLOSED 0 ∧ s.log = since 1 s.log ++ .call 1 (.tryrecv 0) :: b ∧ content 0 b = [] := by
  obtain ⟨s, b, r, h, h1, h2⟩ := histA [.on 1 (.call (.chMake 2)), .on 1 (.call (.close 0)), .on 1 (.call (.tryrecv 0))]
    (i := 1) (c := .tryrecv 0) (v := CLOSED) (d := 0) (q := fun b => decide (content 0 b = [])) (by decide +kernel)
  exact ⟨s, b, r, h, h1, of_decide_eq_true h2⟩
/-- a receive from a sender that is blocked, by a coroutine of which a wake-up is left over (its background work is not finished) -/
example : ∃ s b, Reach any s ∧ Returns s 2 (.recv 0 MAX) OK 5 ∧ s.log = since 2 s.log ++ .call 2 (.recv 0 MAX) :: b ∧ content 0 b ≠ [] ∧ 2 ∈ s.jobs := by
  obtain ⟨s, r, hp⟩ := scriptA [.on 1 (.call (.chMake 0)), .on 1 (.call .start), .on 2 (.call .work), .raw (.submit true), .on 1 (.call (.cancel 2 MAX)), .on 2 (.call (.recv 0 MAX)), .on 1 (.call (.send 0 5 MAX)), .on 2 (.call (.recv 0 MAX))]
    (p := fun s => histB 2 (.recv 0 MAX) OK 5 (fun b => decide (content 0 b ≠ [])) s && decide (2 ∈ s.jobs)) (by decide +kernel)
  simp only [histB, Bool.and_eq_true, decide_eq_true_eq] at hp
  exact ⟨s, _, r, returnsB_iff.mp hp.1.1.1, hp.1.1.2, hp.1.2, hp.2⟩
/-- a reader holds the mutex and nobody is in line: it can be had for reading, not for writing -/
example : ∃ s s1 s2, Reach any s ∧ Disciplined s.log ∧ Running s 1 ∧ Grantable s 0 true ∧ ¬ Grantable s 0 false ∧
    step s (.call (tryCall 0 true)) = some s1 ∧ step s (.call (tryCall 0 false)) = some s2 := by
  obtain ⟨s, r, hp⟩ := scriptA [.on 1 (.call (.rdlock 0 MAX))]
    (p := fun s => turn 1 s && disciplinedB s.log && decide (queue s 0 = [] ∧ holders 0 s.log = [(1, true)]) && (step s (.call (.tryrdlock 0))).isSome && (step s (.call (.trylock 0))).isSome) (by decide +kernel)
  simp only [Bool.and_eq_true, decide_eq_true_eq, turn] at hp
  obtain ⟨⟨⟨⟨h1, h2⟩, h3, h4⟩, h5⟩, h6⟩ := hp
  obtain ⟨s1, e1⟩ := Option.isSome_iff_exists.mp h5
  obtain ⟨s2, e2⟩ := Option.isSome_iff_exists.mp h6
  exact ⟨s, s1, s2, r, disciplinedB_iff.mp h2, by unfold Running; simpa using h1.1, ⟨h3, by rw [h4]; simp⟩, by unfold Grantable; rw [h4]; simp, e1, e2⟩
/-- a writer is in line behind a reader: another reader goes to the end of the line -/
example : ∃ s s1, Reach any s ∧ Disciplined s.log ∧ Running s 1 ∧ ¬ Grantable s 0 true ∧ queue s 0 = [(2, false)] ∧ step s (.call (lockCall 0 true MAX)) = some s1 := by
  obtain ⟨s, r, hp⟩ := scriptA [.on 1 (.call (.rdlock 0 MAX)), .on 1 (.call .start), .on 2 (.call (.lock 0 MAX))]
    (p := fun s => turn 1 s && disciplinedB s.log && decide (queue s 0 = [(2, false)]) && (step s (.call (.rdlock 0 MAX))).isSome) (by decide +kernel)
  simp only [Bool.and_eq_true, decide_eq_true_eq, turn] at hp
  obtain ⟨⟨⟨h1, h2⟩, h3⟩, h5⟩ := hp
  obtain ⟨s1, e1⟩ := Option.isSome_iff_exists.mp h5
  exact ⟨s, s1, r, disciplinedB_iff.mp h2, by unfold Running; simpa using h1.1, by unfold Grantable; rw [h3]; simp, h3, e1⟩

end Neco.Rt
