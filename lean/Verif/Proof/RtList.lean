import Verif.Proof.RtSched
/-!
# The queues of the runtime are consistent with what the coroutines do
-/
namespace Neco.Rt
open Neco.Err

/-- the channel a sending coroutine uses -/
def sendOf (c : Co) : Option Nat :=
  match c.call with
  | .send k _ _ => some k
  | .genYield _ _ => c.gen
  | _ => none

/-- where a node may be, given the record of its owner -/
def place (c : Co) : Node → LName → Prop
  | .co _, .chanQ k => (c.pc = .blk .send ∧ sendOf c = some k) ∨ (c.pc = .blk .recv ∧ ∃ dl, c.call = .recv k dl)
  | .case _ idx, .chanQ k => c.pc = .blk .sel ∧ ∃ cs dl, c.call = .select cs dl ∧ cs[idx]? = some k
  | .co _, .muQ m =>
      (c.pc = .blk (.lock false) ∧ (∃ dl, c.call = .lock m dl) ∧ c.rlocked = false) ∨
      (c.pc = .blk (.lock true) ∧ (∃ dl, c.call = .rdlock m dl) ∧ c.rlocked = true) ∨
      (c.pc = .blk .relock ∧ (∃ v dl, c.call = .cvWait v m dl) ∧ c.rlocked = false)
  | .co _, .wgQ w => c.pc = .blk .wg ∧ ∃ dl, c.call = .wgWait w dl
  | .co _, .cvQ v => c.pc = .blk .cond ∧ ∃ m dl, c.call = .cvWait v m dl
  | .co _, .joinQ t => c.pc = .blk .join ∧ ∃ dl, c.call = .join t dl
  | .co _, .cancelQ t => c.pc = .blk .cancel ∧ ∃ dl, c.call = .cancel t dl
  | .co _, .sigQ => c.pc = .blk .sig ∧ ∃ dl, c.call = .sigWait dl
  | .co _, .resumers => True
  | .co _, .iolist => True
  | .case _ _, _ => False

/-- the part of a record `place` looks at -/
def view (c : Co) : Pc × Call × Option Nat × Bool := (c.pc, c.call, c.gen, c.rlocked)

theorem place_congr {c d : Co} (h : view c = view d) {n : Node} {L : LName} (hp : place c n L) : place d n L := by
  simp only [view, Prod.mk.injEq] at h
  obtain ⟨h1, h2, h3, h4⟩ := h
  have h5 : sendOf c = sendOf d := by unfold sendOf; rw [h2, h3]
  cases n <;> cases L <;> simp only [place, h1, h2, h4, h5] at hp ⊢ <;> exact hp

/-- the pcs at which a coroutine is in a queue -/
def queued : Pc → Bool
  | .blk .send | .blk .recv | .blk .sel | .blk (.lock _) | .blk .relock | .blk .wg | .blk .cond | .blk .join
  | .blk .cancel | .blk .sig => true
  | _ => false

/-- no node of `i` is in a queue other than those of the scheduler -/
def Free (s : S) (i : Nat) : Prop := ∀ L n, n ∈ s.lists L → n.owner = i → L = .resumers ∨ L = .iolist

structure InvL (s : S) : Prop where
  nd : ∀ L, (s.lists L).Nodup
  dj : ∀ L K n, n ∈ s.lists L → n ∈ s.lists K → L = K
  pl : ∀ L n, n ∈ s.lists L → place (s.co n.owner) n L
  ow : ∀ L n, n ∈ s.lists L → n.owner ≤ s.sco.nextId
  jb : ∀ i, i ∈ s.jobs → i ≤ s.sco.nextId

theorem place_sched {c : Co} {n : Node} {L : LName} (hp : place c n L) (hq : queued c.pc = false) :
    L = .resumers ∨ L = .iolist := by
  cases n <;> cases L <;> simp only [place] at hp <;> first
    | (simp; done)
    | exact hp.elim
    | (exfalso; rcases hp with hp | hp <;> simp [hp.1, queued] at hq; done)
    | (exfalso; rcases hp with hp | hp | hp <;> simp [hp.1, queued] at hq; done)
    | (exfalso; simp [hp.1, queued] at hq)

theorem InvL.free {s : S} (h : InvL s) {i : Nat} (hq : queued (s.co i).pc = false) : Free s i := by
  intro L n hn ho
  have := h.pl L n hn
  rw [ho] at this
  exact place_sched this hq

theorem place_of_sched {c d : Co} {n : Node} {L : LName} (hp : place c n L) (hL : L = .resumers ∨ L = .iolist) :
    place d n L := by
  rcases hL with rfl | rfl <;> cases n <;> simp only [place] at hp ⊢

theorem InvL.mono {s t : S} (h : InvL s) (hl : ∀ L, (t.lists L).Sublist (s.lists L))
    (hc : ∀ j, view (t.co j) = view (s.co j) ∨ Free t j)
    (hn : s.sco.nextId ≤ t.sco.nextId) (hj : ∀ i, i ∈ t.jobs → i ∈ s.jobs) : InvL t := by
  refine ⟨fun L => (h.nd L).sublist (hl L), fun L K n a b => h.dj L K n ((hl L).subset a) ((hl K).subset b), ?_,
    fun L n a => Nat.le_trans (h.ow L n ((hl L).subset a)) hn, fun i a => Nat.le_trans (h.jb i (hj i a)) hn⟩
  intro L n a
  have hp := h.pl L n ((hl L).subset a)
  rcases hc n.owner with e | e
  · exact place_congr e.symm hp
  · exact place_of_sched hp (e L n a rfl)

theorem InvL.congr {s t : S} (h : InvL s) (hl : t.lists = s.lists) (hc : ∀ j, view (t.co j) = view (s.co j))
    (hn : s.sco.nextId ≤ t.sco.nextId) (hj : t.jobs = s.jobs) : InvL t :=
  h.mono (fun L => by rw [hl]; exact List.Sublist.refl _) (fun j => .inl (hc j)) hn (fun i a => hj ▸ a)

theorem Free.congr {s t : S} {i : Nat} (h : Free s i) (hl : ∀ L, (t.lists L).Sublist (s.lists L)) : Free t i :=
  fun L n a b => h L n ((hl L).subset a) b

/-! ### list operations -/
theorem mem_rm {s : S} {n x : Node} {L : LName} : x ∈ (rm s n).lists L ↔ x ∈ s.lists L ∧ x ≠ n := by
  simp [rm]

theorem rm_sub (s : S) (n : Node) (L : LName) : ((rm s n).lists L).Sublist (s.lists L) := List.filter_sublist

theorem mem_push {s : S} {n x : Node} {L K : LName} :
    x ∈ (push s L n).lists K ↔ (x ∈ s.lists K ∧ x ≠ n) ∨ (K = L ∧ x = n) := by
  unfold push setList rm
  by_cases hk : K = L
  · subst hk; simp
  · simp [hk]

theorem setList_lists (s : S) (L K : LName) (l : List Node) :
    (setList s L l).lists K = if K = L then l else s.lists K := rfl

theorem setList_sub {s : S} {L : LName} {l : List Node} (h : l.Sublist (s.lists L)) (K : LName) :
    ((setList s L l).lists K).Sublist (s.lists K) := by
  rw [setList_lists]; split
  · subst_vars; exact h
  · exact List.Sublist.refl _

theorem push_nodup {s : S} (h : ∀ L, (s.lists L).Nodup) (L : LName) (n : Node) (K : LName) : ((push s L n).lists K).Nodup := by
  unfold push setList rm
  dsimp only
  split
  · rw [List.nodup_append]
    exact ⟨(h L).filter _, by simp, by intro a ha b hb; simp at ha hb; rw [hb]; exact ha.2⟩
  · exact (h K).filter _

theorem InvL.push' {s t : S} (h : InvL s) {L : LName} {n : Node} (hl : t.lists = (push s L n).lists)
    (hp : place (t.co n.owner) n L)
    (hc : ∀ j, view (t.co j) = view (s.co j) ∨ (j = n.owner ∧ ∀ K x, x ∈ s.lists K → x.owner = j → x ≠ n → K = .resumers ∨ K = .iolist))
    (ho : n.owner ≤ t.sco.nextId) (hn : s.sco.nextId ≤ t.sco.nextId) (hj : ∀ i, i ∈ t.jobs → i ∈ s.jobs) : InvL t := by
  refine ⟨fun K => by rw [hl]; exact push_nodup h.nd L n K, ?_, ?_, ?_, fun i a => Nat.le_trans (h.jb i (hj i a)) hn⟩
  · intro A B x ha hb
    rw [hl, mem_push] at ha hb
    rcases ha with ⟨ha, ha'⟩ | ⟨ha, ha'⟩ <;> rcases hb with ⟨hb, hb'⟩ | ⟨hb, hb'⟩
    · exact h.dj A B x ha hb
    · exact absurd hb' ha'
    · exact absurd ha' hb'
    · rw [ha, hb]
  · intro K x hx
    rw [hl, mem_push] at hx
    rcases hx with ⟨hx, hx'⟩ | ⟨rfl, rfl⟩
    · have h1 := h.pl K x hx
      rcases hc x.owner with e | ⟨e1, e2⟩
      · exact place_congr e.symm h1
      · exact place_of_sched h1 (e2 K x hx rfl hx')
    · exact hp
  · intro K x hx
    rw [hl, mem_push] at hx
    rcases hx with ⟨hx, _⟩ | ⟨_, rfl⟩
    · exact Nat.le_trans (h.ow K x hx) hn
    · exact ho

/-- a free coroutine blocks in a queue -/
theorem InvL.block {s t : S} (h : InvL s) {i : Nat} (hf : Free s i) {L : LName}
    (hl : t.lists = (push s L (.co i)).lists) (hp : place (t.co i) (.co i) L)
    (hc : ∀ j, j ≠ i → view (t.co j) = view (s.co j))
    (ho : i ≤ s.sco.nextId) (hn : s.sco.nextId ≤ t.sco.nextId) (hj : t.jobs = s.jobs) : InvL t := by
  refine h.push' hl hp (fun j => ?_) (Nat.le_trans ho hn) hn (fun i a => hj ▸ a)
  by_cases e : j = i
  · right; exact ⟨e, fun K x a b _ => hf K x a (b.trans e)⟩
  · left; exact hc j e

theorem InvL.sched {s : S} (h : InvL s) {i : Nat} (ho : i ≤ s.sco.nextId) : InvL (schedResume s i) :=
  h.push' (t := schedResume s i) (L := .resumers) (n := .co i) rfl trivial (fun j => .inl rfl) ho (Nat.le_refl _) (fun _ a => a)

/-! ### the scheduler's identifiers -/
theorem dispatch_nextId (x : Sco) : x.dispatch.nextId = x.nextId := by unfold Sco.dispatch; split <;> rfl
@[simp] theorem switch_nextId (x : Sco) (b : Bool) : (x.switch b).nextId = x.nextId := by
  unfold Sco.switch Sco.toMain
  (repeat' split) <;> (try rw [dispatch_nextId]) <;> rfl
@[simp] theorem yield_nextId (x : Sco) : x.yield.nextId = x.nextId := by
  unfold Sco.yield; split <;> simp
@[simp] theorem pause_nextId (x : Sco) : x.pause.nextId = x.nextId := by
  unfold Sco.pause; split <;> simp
@[simp] theorem resume_nextId (x : Sco) (id : Nat) : (x.resume id).nextId = x.nextId := by
  unfold Sco.resume; split <;> simp [Sco.wake]
@[simp] theorem finish_nextId (x : Sco) : x.finish.nextId = x.nextId := by unfold Sco.finish; simp
@[simp] theorem exit_nextId (x : Sco) : x.exit.nextId = x.nextId := by unfold Sco.exit; simp
@[simp] theorem resume0_nextId (x : Sco) : x.resume0.nextId = x.nextId := by unfold Sco.resume0; simp
@[simp] theorem start_nextId (x : Sco) : x.start.nextId = x.nextId + 1 := by unfold Sco.start; dsimp only; split <;> rfl

theorem CoSco.nextId_le {x y : Sco} (h : CoSco x y) : x.nextId ≤ y.nextId := by
  cases h <;> simp

theorem cur_le {x : Sco} (hw : Sco.WF x) {i : Nat} (h : x.cur = some i) : 1 ≤ i ∧ i ≤ x.nextId := by
  have := hw.perm.mem_iff.1 (show i ∈ x.everybody by unfold Sco.everybody; simp [h])
  rw [List.mem_range'_1] at this; omega

/-! ### records -/
theorem upd_co (s : S) (i : Nat) (f : Co → Co) (j : Nat) : (upd s i f).co j = if j = i then f (s.co i) else s.co j := rfl
theorem setPc_co (s : S) (i : Nat) (p : Pc) (j : Nat) : (setPc s i p).co j = if j = i then { s.co i with pc := p } else s.co j := rfl
theorem retv_co (s : S) (i : Nat) (v : Int) (j : Nat) : (retv s i v).co j = if j = i then { s.co i with pc := .ret v } else s.co j := rfl
theorem coyield_co (s : S) (i n : Nat) (a : Aft) (j : Nat) : (coyield s i n a).co j = if j = i then { s.co i with pc := .yck n a } else s.co j := rfl
theorem dlClear_co (s : S) (i : Nat) (j : Nat) : (dlClear s i).co j = if j = i then { s.co i with canceled := false, deadlined := false } else s.co j := rfl

theorem copause_co (s : S) (i : Nat) (dl : Int) (b : Blk) (j : Nat) : (copause s i dl b).co j =
    if j = i then
      if (s.co i).canceled = true ∨ (s.co i).deadlined = true then { s.co i with pc := .blk b }
      else { s.co i with pc := .blk b, deadline := dl, paused := true }
    else s.co j := by
  unfold copause
  by_cases h : (s.co i).canceled = true ∨ (s.co i).deadlined = true
  · rw [if_pos h]; simp only [setPc_co]; rw [if_pos h]
  · rw [if_neg h]; dsimp only; simp only [upd_co]; rw [if_neg h]

theorem upd_view {s : S} {i : Nat} {f : Co → Co} (hf : ∀ c, view (f c) = view c) (j : Nat) :
    view ((upd s i f).co j) = view (s.co j) := by
  rw [upd_co]; split
  · subst_vars; exact hf _
  · rfl

theorem unpause_view (s : S) (i j : Nat) : view ((unpause s i).co j) = view (s.co j) := by
  unfold unpause; split
  · dsimp only; simp only [upd_co]; split
    · subst_vars; rfl
    · rfl
  · rfl

theorem dlClear_view (s : S) (i j : Nat) : view ((dlClear s i).co j) = view (s.co j) := by
  rw [dlClear_co]; split
  · subst_vars; rfl
  · rfl

theorem nextId_copause (s : S) (i : Nat) (dl : Int) (b : Blk) : (copause s i dl b).sco.nextId = s.sco.nextId := by
  rw [copause_sco]; split <;> simp

theorem InvL.setPc {s : S} (h : InvL s) {i : Nat} (hf : Free s i) (p : Pc) : InvL (setPc s i p) := by
  refine h.mono (fun L => List.Sublist.refl _) (fun j => ?_) (Nat.le_refl _) (fun _ a => a)
  by_cases e : j = i
  · right; subst e; exact hf
  · left; rw [setPc_co, if_neg e]

theorem InvL.retv {s : S} (h : InvL s) {i : Nat} (hf : Free s i) (v : Int) : InvL (retv s i v) := h.setPc hf _

theorem InvL.upd {s : S} (h : InvL s) {i : Nat} {f : Co → Co} (hf : ∀ c, view (f c) = view c) : InvL (upd s i f) :=
  h.congr rfl (upd_view hf) (Nat.le_refl _) rfl

theorem InvL.dlClear {s : S} (h : InvL s) {i : Nat} : InvL (dlClear s i) := h.congr rfl (dlClear_view s i) (Nat.le_refl _) rfl

theorem InvL.updFree {s : S} (h : InvL s) {i : Nat} (hf : Free s i) (f : Co → Co) : InvL (Rt.upd s i f) := by
  refine h.mono (fun L => List.Sublist.refl _) (fun j => ?_) (Nat.le_refl _) (fun _ a => a)
  by_cases e : j = i
  · right; subst e; exact hf
  · left; rw [upd_co, if_neg e]

theorem InvL.rm {s : S} (h : InvL s) (n : Node) : InvL (rm s n) :=
  h.mono (rm_sub s n) (fun j => .inl rfl) (Nat.le_refl _) (fun _ a => a)

theorem InvL.setList {s : S} (h : InvL s) {L : LName} {l : List Node} (hs : l.Sublist (s.lists L)) : InvL (setList s L l) :=
  h.mono (setList_sub hs) (fun j => .inl rfl) (Nat.le_refl _) (fun _ a => a)

theorem InvL.sco {s : S} (h : InvL s) {x : Sco} (hx : s.sco.nextId ≤ x.nextId) : InvL { s with sco := x } :=
  h.congr rfl (fun _ => rfl) hx rfl

theorem InvL.scoResume {s : S} (h : InvL s) (id : Nat) : InvL (scoResume s id) :=
  h.sco (by simp)

theorem InvL.coyield {s : S} (h : InvL s) {i : Nat} (hf : Free s i) (n : Nat) (a : Aft) : InvL (coyield s i n a) := by
  unfold Rt.coyield
  exact (h.setPc hf _).sco (by simp)

theorem InvL.yfsr {s : S} (h : InvL s) {i : Nat} (hf : Free s i) (n : Nat) (a : Aft) : InvL (yfsr s i n a) := h.coyield hf _ _

/-- `copause` without a queue -/
theorem InvL.copause {s : S} (h : InvL s) {i : Nat} (hf : Free s i) (dl : Int) (b : Blk) : InvL (copause s i dl b) := by
  refine h.mono (fun L => by rw [copause_lists]; exact List.Sublist.refl _) (fun j => ?_) (by rw [nextId_copause]; exact Nat.le_refl _) (fun _ a => by rw [copause_jobs] at a; exact a)
  by_cases e : j = i
  · right; subst e; exact hf.congr (fun L => by rw [copause_lists]; exact List.Sublist.refl _)
  · left; rw [copause_co, if_neg e]

theorem place_blk_irrel {c : Co} {n : Node} {L : LName} {d : Co} (h : view d = view c) (hp : place c n L) : place d n L :=
  place_congr h.symm hp

/-- push on a queue and `copause` there -/
theorem InvL.pushPause {s t : S} (h : InvL s) {i : Nat} (hf : Free s i) (ho : i ≤ s.sco.nextId) {L : LName} (dl : Int) (b : Blk)
    (hl : t.lists = (push s L (.co i)).lists) (hv : ∀ j, j ≠ i → view (t.co j) = view (s.co j))
    (hp : place { t.co i with pc := .blk b } (.co i) L)
    (hn : s.sco.nextId ≤ t.sco.nextId) (hj : t.jobs = s.jobs) : InvL (Rt.copause t i dl b) := by
  refine h.block hf (L := L) (by rw [copause_lists, hl]) ?_ ?_ ho (by rw [nextId_copause]; exact hn) (by rw [copause_jobs, hj])
  · rw [copause_co, if_pos rfl]
    split
    · exact hp
    · exact place_congr (c := { t.co i with pc := .blk b }) rfl hp
  · intro j e
    rw [copause_co, if_neg e]; exact hv j e

end Neco.Rt
