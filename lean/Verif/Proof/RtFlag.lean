import Verif.Proof.RtOth3
/-!
# The flags of a coroutine agree with what it does
-/
namespace Neco.Rt
open Neco.Err

/-- the call and deadline with which a coroutine is blocked at `b` -/
def BlkC : Blk → Call → Int → Prop
  | .sleep, c, dl => c = .sleep dl
  | .send, c, dl => (∃ k m, c = .send k m dl) ∨ (∃ m, c = .genYield m dl)
  | .recv, c, dl => ∃ k, c = .recv k dl
  | .sel, c, dl => ∃ cs, c = .select cs dl
  | .lock false, c, dl => ∃ m, c = .lock m dl
  | .lock true, c, dl => ∃ m, c = .rdlock m dl
  | .relock, c, dl => (∃ v m d, c = .cvWait v m d) ∧ dl = MAX
  | .wg, c, dl => ∃ w, c = .wgWait w dl
  | .cond, c, dl => ∃ v m, c = .cvWait v m dl
  | .join, c, dl => ∃ t, c = .join t dl
  | .cancel, c, dl => ∃ t, c = .cancel t dl
  | .susp, c, dl => c = .suspend dl
  | .sig, c, dl => c = .sigWait dl
  | .wait, c, dl => ∃ fd w, c = .wait fd w dl

def Pc.isBlk : Pc → Bool
  | .blk _ => true
  | _ => false

structure CoF (j : Nat) (s : S) : Prop where
  pb : (s.co j).paused = true → (s.co j).pc.isBlk = true
  sp : j ∈ s.sco.paused → ((s.co j).pc.isBlk = true ∧ (s.co j).paused = true) ∨ (s.co j).pc = .workWait
  dq : j ∈ s.dlq ↔ (s.co j).paused = true ∧ (s.co j).deadline < MAX
  ev : ∀ fd w, (fd, w, j) ∈ s.evw ↔ (s.co j).pc = .blk .wait ∧ ∃ dl, (s.co j).call = .wait fd w dl
  su : (s.co j).suspended = true ↔ (s.co j).pc = .blk .susp
  bc : ∀ b, (s.co j).pc = .blk b → ∃ dl, BlkC b (s.co j).call dl ∧ ((s.co j).paused = true → (s.co j).deadline = dl)
  np : (s.co j).pc.isBlk = true → (s.co j).paused = false → (s.co j).canceled = true ∨ (s.co j).deadlined = true
  rl : (s.co j).rlocked = true → (s.co j).pc = .blk (.lock true)
  cn : j ∈ s.sco.paused → (s.co j).pc.isBlk = true → (s.co j).canceled = false

theorem CoF.evU {s : S} {j : Nat} (h : CoF j s) : EvU s j := by
  intro fd w fd' w' a b
  obtain ⟨_, dl, h1⟩ := (h.ev _ _).mp a
  obtain ⟨_, dl', h2⟩ := (h.ev _ _).mp b
  rw [h1] at h2; simp at h2; exact ⟨h2.1, h2.2.1⟩

/-- the part of a record `CoF` looks at, except `canceled` and `deadlined` -/
theorem CoF.delta {s t : S} {j : Nat} {f : Co → Co} {es gone res up} (h : CoF j s) (d : Dlt j f es gone res up s t)
    (hf : ∀ k, (f k).pc = k.pc ∧ (f k).call = k.call ∧ (f k).paused = k.paused ∧ (f k).deadline = k.deadline ∧ (f k).suspended = k.suspended ∧
      (f k).rlocked = k.rlocked ∧ (k.canceled = true → (f k).canceled = true) ∧ (k.deadlined = true → (f k).deadlined = true) ∧ (up = true ∨ (f k).canceled = k.canceled)) : CoF j t := by
  obtain ⟨h1, h2, h3, h4, h5, h6, h7, h8, h9⟩ := hf (s.co j)
  refine ⟨?_, ?_, ?_, ?_, ?_, ?_, ?_, ?_, ?_⟩
  · rw [d.co, h1, h3]; exact h.pb
  · intro hp; rw [d.co, h1, h3]; exact h.sp (d.pz.mp hp).1
  · rw [d.co, d.dl, h3, h4]; exact h.dq
  · intro fd w; rw [d.ev, d.co, h1, h2]; exact h.ev fd w
  · rw [d.co, h1, h5]; exact h.su
  · intro b; rw [d.co, h1, h2, h3, h4]; exact h.bc b
  · rw [d.co, h1, h3]; intro a b
    rcases h.np a b with c | c
    · exact .inl (h7 c)
    · exact .inr (h8 c)
  · rw [d.co, h1, h6]; exact h.rl
  · intro hp hb
    obtain ⟨g1, g2⟩ := d.pz.mp hp
    rcases h9 with h9 | h9
    · rw [h9] at g2; cases g2
    · rw [d.co, h9]; rw [d.co, h1] at hb; exact h.cn g1 hb

theorem CoF.mv {s t : S} {j : Nat} (h : CoF j s) (m : Mv j s t) : CoF j t := by
  cases m with
  | same d => exact h.delta d (fun k => by simp)
  | take c m hn hp hc d => exact h.delta d (fun k => by simp)
  | takeCase c m k hn hp hc hr d => exact h.delta d (fun k => by simp)
  | bcast c m hn hp hc d => exact h.delta d (fun k => by simp)
  | bcastCase c m k hn hp hc hr d => exact h.delta d (fun k => by simp)
  | close c hn hp hc d => exact h.delta d (fun k => by simp)
  | closeCase c k hn hp hc hr d => exact h.delta d (fun k => by simp)
  | skip g hr hg d => exact h.delta d (fun k => by simp)
  | sent c hn hp hc d => exact h.delta d (fun k => by simp)
  | grant m rd hn hr d => exact h.delta d (fun k => by simp)
  | wake L now hn hL d => exact h.delta d (fun k => by simp)
  | resumed i hp d => exact h.delta d (fun k => by simp)
  | canceled i he d => exact h.delta d (fun k => by simp)
  | fromRes hn d => exact h.delta d (fun k => by simp)
  | fromIo hn d => exact h.delta d (fun k => by simp)
  | ready fd w es hn he hes d => exact h.delta d (fun k => by simp)
  | sigTo n hn hm d => exact h.delta d (fun k => by simp)
  | deadlined hn hd d => exact h.delta d (fun k => by simp)
  | wdone hj co mem pz dl ev jb log clk =>
    refine ⟨?_, ?_, ?_, ?_, ?_, ?_, ?_, ?_, ?_⟩
    · rw [co]; exact h.pb
    · rw [co, pz]; exact h.sp
    · rw [co, dl]; exact h.dq
    · intro fd w; rw [co, ev]; exact h.ev fd w
    · rw [co]; exact h.su
    · rw [co]; exact h.bc
    · rw [co]; exact h.np
    · rw [co]; exact h.rl
    · rw [co, pz]; exact h.cn

theorem CoF.mvs {s t : S} {j : Nat} (h : CoF j s) (m : Mvs j s t) : CoF j t := by
  induction m with
  | refl => exact h
  | head a _ ih => exact ih (h.mv a)

/-! ## The running coroutine -/

/-- a coroutine that is running and not waiting for anything -/
structure Calm (i : Nat) (s : S) : Prop where
  pa : (s.co i).paused = false
  su : (s.co i).suspended = false
  rl : (s.co i).rlocked = false
  sp : i ∉ s.sco.paused
  dq : i ∉ s.dlq
  ev : ∀ fd w, (fd, w, i) ∉ s.evw

theorem CoF.calm {s : S} {i : Nat} (h : CoF i s) (hc : i ∉ s.sco.paused) (hp : (s.co i).pc.isBlk = false) : Calm i s := by
  have hpa : (s.co i).paused = false := by
    cases e : (s.co i).paused with
    | false => rfl
    | true => rw [h.pb e] at hp; simp at hp
  refine ⟨hpa, ?_, ?_, hc, ?_, ?_⟩
  · cases e : (s.co i).suspended with
    | false => rfl
    | true => rw [h.su.mp e] at hp; simp [Pc.isBlk] at hp
  · cases e : (s.co i).rlocked with
    | false => rfl
    | true => rw [h.rl e] at hp; simp [Pc.isBlk] at hp
  · intro hd; have := (h.dq.mp hd).1; rw [hpa] at this; simp at this
  · intro fd w he; have := ((h.ev fd w).mp he).1; rw [this] at hp; simp [Pc.isBlk] at hp

theorem Calm.cof {s : S} {i : Nat} (h : Calm i s) (hp : (s.co i).pc.isBlk = false) : CoF i s := by
  refine ⟨?_, ?_, ?_, ?_, ?_, ?_, ?_, ?_, fun hs => absurd hs h.sp⟩
  · rw [h.pa]; simp
  · intro hs; exact absurd hs h.sp
  · simp [h.dq, h.pa]
  · intro fd w; simp only [h.ev fd w, false_iff, not_and]; intro hb; rw [hb] at hp; simp [Pc.isBlk] at hp
  · rw [h.su]; simp; intro hb; rw [hb] at hp; simp [Pc.isBlk] at hp
  · intro b hb; rw [hb] at hp; simp [Pc.isBlk] at hp
  · rw [hp]; simp
  · rw [h.rl]; simp

/-- erase what the operations of others and receiving change -/
def fl (c : Co) : Co := { c with rdat := 0, retIdx := 0, cclosed := false, smsg := 0, sav := 0, lastid := 0 }

theorem fl_paused {c d : Co} (h : fl c = fl d) : c.paused = d.paused := by have := congrArg Co.paused h; exact this
theorem fl_suspended {c d : Co} (h : fl c = fl d) : c.suspended = d.suspended := by have := congrArg Co.suspended h; exact this
theorem fl_rlocked {c d : Co} (h : fl c = fl d) : c.rlocked = d.rlocked := by have := congrArg Co.rlocked h; exact this
theorem fl_pc {c d : Co} (h : fl c = fl d) : c.pc = d.pc := by have := congrArg Co.pc h; exact this
theorem fl_call {c d : Co} (h : fl c = fl d) : c.call = d.call := by have := congrArg Co.call h; exact this
theorem fl_canceled {c d : Co} (h : fl c = fl d) : c.canceled = d.canceled := by have := congrArg Co.canceled h; exact this
theorem fl_deadlined {c d : Co} (h : fl c = fl d) : c.deadlined = d.deadlined := by have := congrArg Co.deadlined h; exact this
theorem fl_gen {c d : Co} (h : fl c = fl d) : c.gen = d.gen := by have := congrArg Co.gen h; exact this
theorem fl_async {c d : Co} (h : fl c = fl d) : c.async = d.async := by have := congrArg Co.async h; exact this
theorem fl_enabled {c d : Co} (h : fl c = fl d) : c.enabled = d.enabled := by have := congrArg Co.enabled h; exact this

/-- transfer of `Calm` when the record, the scheduler's paused set and the queues change only in irrelevant ways -/
theorem Calm.trans {s t : S} {i : Nat} (h : Calm i s) (h1 : (t.co i).paused = (s.co i).paused) (h2 : (t.co i).suspended = (s.co i).suspended)
    (h3 : (t.co i).rlocked = (s.co i).rlocked) (h4 : ∀ k, k ∈ t.sco.paused → k ∈ s.sco.paused) (h5 : t.dlq = s.dlq) (h6 : t.evw = s.evw) : Calm i t :=
  ⟨by rw [h1]; exact h.pa, by rw [h2]; exact h.su, by rw [h3]; exact h.rl, fun hs => h.sp (h4 _ hs), by rw [h5]; exact h.dq, by rw [h6]; exact h.ev⟩

theorem sub_resume (x : Sco) (id : Nat) : ∀ k, k ∈ (x.resume id).paused → k ∈ x.paused := fun _ h => (mem_resume.mp h).1

/-- what `copause` does to the coroutine itself -/
theorem CoF.pause {s : S} {i : Nat} {dl : Int} {b : Blk} (hcur : s.sco.cur = some i) (h1 : (s.co i).paused = false) (h4 : i ∉ s.sco.paused)
    (h5 : i ∉ s.dlq) (h2 : (s.co i).suspended = true ↔ b = .susp) (h3 : (s.co i).rlocked = true → b = .lock true)
    (h6 : ∀ fd w, (fd, w, i) ∈ s.evw ↔ b = .wait ∧ ∃ dl, (s.co i).call = .wait fd w dl) (hb : BlkC b (s.co i).call dl) : CoF i (copause s i dl b) := by
  unfold copause
  split
  · rename_i hcd
    refine ⟨?_, ?_, ?_, ?_, ?_, ?_, ?_, ?_, fun hs => absurd hs h4⟩
    · simp [setPc_co, h1]
    · intro hs; exact absurd hs h4
    · simp [setPc_co, h1, h5]
    · intro fd w; simp [setPc_co, h6]
    · simp [setPc_co, h2]
    · intro b' hb'; simp [setPc_co] at hb' ⊢; subst hb'; exact ⟨dl, hb, by simp [h1]⟩
    · intro _ _; simpa [setPc_co] using hcd
    · simp [setPc_co]; intro hr; rw [h3 hr]
  · rename_i hcd
    refine ⟨?_, ?_, ?_, ?_, ?_, ?_, ?_, ?_, fun _ _ => by simpa [upd_co] using fun e => hcd (.inl e)⟩
    · simp [upd_co, Pc.isBlk]
    · intro _; simp [upd_co, Pc.isBlk]
    · simp only [upd_co, if_true, upd_dlq, true_and]
      split
      · simp [mem_dlInsert, *]
      · simp [h5, *]
    · intro fd w; simp [upd_co, h6]
    · simp [upd_co, h2]
    · intro b' hb'; simp [upd_co] at hb' ⊢; subst hb'; exact hb
    · simp [upd_co]
    · simp [upd_co]; intro hr; rw [h3 hr]

theorem Calm.pause {s : S} {i : Nat} {dl : Int} {b : Blk} (h : Calm i s) (hcur : s.sco.cur = some i)
    (hb : BlkC b (s.co i).call dl) (h2 : b ≠ .susp) (h6 : b ≠ .wait) : CoF i (copause s i dl b) :=
  CoF.pause hcur h.pa h.sp h.dq (by simp [h.su, h2]) (by simp [h.rl]) (fun fd w => by simp [h.ev fd w, h6]) hb

theorem coyield_calm {s : S} {i n : Nat} {a : Aft} (h : Calm i s) : CoF i (coyield s i n a) :=
  (h.trans (t := coyield s i n a) (by simp [coyield_co]) (by simp [coyield_co]) (by simp [coyield_co]) (by simp [coyield]) rfl rfl).cof (by simp [coyield_co, Pc.isBlk])
theorem yfsr_calm {s : S} {i n : Nat} {a : Aft} (h : Calm i s) : CoF i (yfsr s i n a) := coyield_calm h
theorem setPc_calm {s : S} {i : Nat} {p : Pc} (h : Calm i s) (hp : p.isBlk = false) : CoF i (setPc s i p) :=
  (h.trans (t := setPc s i p) (by simp [setPc_co]) (by simp [setPc_co]) (by simp [setPc_co]) (fun _ => id) rfl rfl).cof (by simp [setPc_co, hp])
theorem retv_calm {s : S} {i : Nat} {v : Int} (h : Calm i s) : CoF i (retv s i v) := setPc_calm h rfl
theorem retvResume_calm {s : S} {i : Nat} {v : Int} {id : Nat} (h : Calm i s) : CoF i (scoResume (retv s i v) id) :=
  (h.trans (t := scoResume (retv s i v) id) (by simp [scoResume, retv_co]) (by simp [scoResume, retv_co]) (by simp [scoResume, retv_co]) (sub_resume _ _) rfl rfl).cof (by simp [scoResume, retv_co, Pc.isBlk])

theorem Calm.upd {s : S} {i : Nat} {f : Co → Co} (h : Calm i s) (hf : ∀ c, (f c).paused = c.paused ∧ (f c).suspended = c.suspended ∧ (f c).rlocked = c.rlocked) :
    Calm i (upd s i f) :=
  h.trans (by simp [upd_co, (hf _).1]) (by simp [upd_co, (hf _).2.1]) (by simp [upd_co, (hf _).2.2]) (fun _ => id) rfl rfl

theorem Calm.dlClear {s : S} {i : Nat} (h : Calm i s) : Calm i (dlClear s i) := Calm.upd h (fun c => by simp)

/-- others' loops -/
theorem sendLoop_fl (s : S) (c : Nat) (m : Msg) (q : List Node) (j : Nat) : fl ((sendLoop s c m q).1.co j) = fl (s.co j) := by
  induction q with
  | nil => rfl
  | cons n q ih =>
    cases n with
    | co r =>
      simp only [sendLoop, note_co, upd_co]; split
      · subst_vars; rfl
      · rfl
    | case r k =>
      simp only [sendLoop]; split
      · exact ih
      · simp only [note, upd]; split
        · subst_vars; rfl
        · rfl

theorem bcastLoop_fl (s : S) (c : Nat) (m : Msg) (q : List Node) (j : Nat) : fl ((bcastLoop s c m q).1.co j) = fl (s.co j) := by
  induction q generalizing s with
  | nil => rfl
  | cons n q ih =>
    cases n with
    | co r =>
      simp only [bcastLoop]; rw [ih]; simp only [schedResume_co, note_co, upd_co]; split
      · subst_vars; rfl
      · rfl
    | case r k =>
      simp only [bcastLoop]; split
      · exact ih _
      · dsimp only; rw [ih]; simp only [schedResume_co, note, upd]; split
        · subst_vars; rfl
        · rfl

theorem closeLoop_fl (s : S) (c : Nat) (q : List Node) (j : Nat) : fl ((closeLoop s c q).co j) = fl (s.co j) := by
  induction q generalizing s with
  | nil => rfl
  | cons n q ih =>
    cases n with
    | co r =>
      simp only [closeLoop]; rw [ih]; simp only [schedResume_co, upd_co]; split
      · subst_vars; rfl
      · rfl
    | case r k =>
      simp only [closeLoop]; split
      · exact ih _
      · rw [ih]; simp only [schedResume_co, upd]; split
        · subst_vars; rfl
        · rfl

theorem Calm.fl {s t : S} {i : Nat} (h : Calm i s) (hf : fl (t.co i) = fl (s.co i)) (h4 : t.sco = s.sco) (h5 : t.dlq = s.dlq) (h6 : t.evw = s.evw) : Calm i t :=
  h.trans (fl_paused hf) (fl_suspended hf) (fl_rlocked hf) (by rw [h4]; exact fun _ => id) h5 h6


theorem Calm.sendTry {s : S} {i : Nat} (h : Calm i s) (c : Nat) (m : Msg) (ch : Chan) : Calm i (sendTry s c m ch).1 := by
  unfold Rt.sendTry; split
  · exact h.fl (sendLoop_fl _ _ _ _ _) (by simp) (by simp) (by simp)
  · exact h

theorem Calm.bcastTry {s : S} {i : Nat} (h : Calm i s) (c : Nat) (m : Msg) (ch : Chan) : Calm i (bcastTry s c m ch).1 := by
  unfold Rt.bcastTry; split
  · exact h.fl (bcastLoop_fl _ _ _ _ _) (by simp) (by simp) (by simp)
  · exact h

theorem sendTry_call (s : S) (c : Nat) (m : Msg) (ch : Chan) (j : Nat) : ((sendTry s c m ch).1.co j).call = (s.co j).call := by
  have := sendTry_view s c m ch j; simp only [view, Prod.mk.injEq] at this; exact this.2.1

theorem sendTry_cur (s : S) (c : Nat) (m : Msg) (ch : Chan) : (sendTry s c m ch).1.sco = s.sco := by
  unfold Rt.sendTry; split <;> simp

section
variable {s : S} {i : Nat} (h : Calm i s) (hcur : s.sco.cur = some i) (hp : (s.co i).pc.isBlk = false)
include h hcur hp

/-- the shape of `copause` with state updates that do not matter -/
theorem cof_pause {t : S} {dl : Int} {b : Blk} (hco : t.co i = s.co i) (hsco : t.sco = s.sco) (hd : t.dlq = s.dlq) (he : t.evw = s.evw)
    (hb : BlkC b (s.co i).call dl) (h2 : b ≠ .susp) (h6 : b ≠ .wait) : CoF i (copause t i dl b) := by
  refine Calm.pause (h.trans ?_ ?_ ?_ ?_ hd he) (by rw [hsco]; exact hcur) (by rw [hco]; exact hb) h2 h6
  · rw [hco]
  · rw [hco]
  · rw [hco]
  · rw [hsco]; exact fun _ => id

theorem chanSend_cof (c : Nat) (m : Msg) (dl : Int) (hc : BlkC .send (s.co i).call dl) : CoF i (chanSend s i c m dl) := by
  unfold chanSend
  split
  · exact Calm.cof (h.trans rfl rfl rfl (fun _ => id) rfl rfl) hp
  · split
    · exact retv_calm h
    · split
      · exact retv_calm (h.upd (fun c => by simp))
      · rename_i ch _ _ _
        have h' : Calm i (note s (.put c i m)) := h.trans rfl rfl rfl (fun _ => id) rfl rfl
        have h1 := h'.sendTry c m ch
        dsimp only
        split
        · exact retvResume_calm h1
        · unfold sendRest
          split
          · exact retv_calm (h1.trans rfl rfl rfl (fun _ => id) rfl rfl)
          · refine CoF.pause ?_ ?_ ?_ ?_ ?_ ?_ ?_ ?_
            · simp [sendTry_cur, hcur]
            · simp [upd_co, h1.pa]
            · simpa using h1.sp
            · simpa using h1.dq
            · simp [upd_co, h1.su]
            · simp [upd_co, h1.rl]
            · intro fd w; simpa [upd_co] using h1.ev fd w
            · simpa [upd_co, sendTry_call] using hc

theorem recvNow_fl {c r : Nat} {ch : Chan} {m : Msg} {o : Option Nat} {t : S} (e : recvNow s c r ch = some (m, o, t)) :
    t.co = s.co ∧ t.sco = s.sco ∧ t.dlq = s.dlq ∧ t.evw = s.evw := by
  unfold recvNow at e
  repeat' split at e
  all_goals first
    | (simp at e; done)
    | (simp only [Option.some.injEq, Prod.mk.injEq] at e; obtain ⟨_, _, e⟩ := e; subst e; exact ⟨rfl, rfl, rfl, rfl⟩)

theorem resumeOpt_cof {t : S} {p : Pc} (o : Option Nat) (h : Calm i t) (hp : p.isBlk = false) : CoF i (resumeOpt (setPc t i p) o) := by
  cases o with
  | none => exact setPc_calm h hp
  | some r =>
    exact (h.trans (t := scoResume (setPc t i p) r) (by simp [scoResume, setPc_co]) (by simp [scoResume, setPc_co]) (by simp [scoResume, setPc_co]) (sub_resume _ _) rfl rfl).cof (by simp [scoResume, setPc_co, hp])

theorem chanRecv_cof (c : Nat) (t : Bool) (dl : Int) (hc : t = false → BlkC .recv (s.co i).call dl) : CoF i (chanRecv s i c t dl) := by
  unfold chanRecv
  split
  · exact Calm.cof (h.trans rfl rfl rfl (fun _ => id) rfl rfl) hp
  · split
    · exact retv_calm h
    · split
      · exact retv_calm (h.upd (fun c => by simp))
      · split
        · rename_i m snd t' e
          obtain ⟨h1, h2, h3, h4⟩ := recvNow_fl h hcur hp e
          refine resumeOpt_cof h hcur hp _ (h.trans ?_ ?_ ?_ ?_ ?_ ?_) rfl
          all_goals simp [upd_co, h1, h2, h3, h4]
        · split
          · exact retv_calm h
          · rename_i ht
            refine CoF.pause ?_ ?_ ?_ ?_ ?_ ?_ ?_ ?_
            · simp [hcur]
            · simp [upd_co, h.pa]
            · simpa using h.sp
            · simpa using h.dq
            · simp [upd_co, h.su]
            · simp [upd_co, h.rl]
            · intro fd w; simpa [upd_co] using h.ev fd w
            · simpa [upd_co] using hc (by simpa using ht)

theorem chanClose1_cof (c : Nat) (ch : Chan) (a : Aft) : CoF i (chanClose1 s i c ch a) := by
  unfold chanClose1
  dsimp only
  split
  · exact setPc_calm (h.trans rfl rfl rfl (fun _ => id) rfl rfl) rfl
  · refine yfsr_calm ?_
    have h1 : Calm i (setChan s c { ch with sclosed := true }) := h.trans rfl rfl rfl (fun _ => id) rfl rfl
    have h2 : Calm i (closeLoop (setChan s c { ch with sclosed := true }) c ((setChan s c { ch with sclosed := true }).lists (.chanQ c))) :=
      h1.fl (closeLoop_fl _ _ _ _) (by simp) (by simp) (by simp)
    exact h2.trans rfl rfl rfl (fun _ => id) rfl rfl

theorem selPush_fl (k : Nat) (cs : List Nat) (t : S) : (selPush t i k cs).co = t.co ∧ (selPush t i k cs).sco = t.sco ∧ (selPush t i k cs).dlq = t.dlq ∧ (selPush t i k cs).evw = t.evw := by
  induction cs generalizing t k with
  | nil => exact ⟨rfl, rfl, rfl, rfl⟩
  | cons c cs ih => simp only [selPush]; exact ih _ _

theorem chanSelect_cof (cs : List Nat) (t : Bool) (dl : Int) (hc : t = false → BlkC .sel (s.co i).call dl) : CoF i (chanSelect s i cs dl t) := by
  unfold chanSelect
  have hf : CoF i { s with fault := true } := Calm.cof (h.trans rfl rfl rfl (fun _ => id) rfl rfl) hp
  split
  · exact hf
  · split
    · exact retv_calm (h.upd (fun c => by simp))
    · split
      · split
        · exact hf
        · split
          · exact setPc_calm h rfl
          · split
            · rename_i m snd t' e
              obtain ⟨h1, h2, h3, h4⟩ := recvNow_fl h hcur hp e
              refine resumeOpt_cof h hcur hp _ (h.trans ?_ ?_ ?_ ?_ ?_ ?_) rfl
              all_goals simp [h1, h2, h3, h4]
            · exact hf
      · split
        · exact retv_calm h
        · rename_i ht
          obtain ⟨h1, h2, h3, h4⟩ := selPush_fl h hcur hp 0 cs (upd s i (fun k => { k with retIdx := -1 }))
          refine CoF.pause ?_ ?_ ?_ ?_ ?_ ?_ ?_ ?_
          · simp [h2, hcur]
          · simp [h1, upd_co, h.pa]
          · simpa [h2] using h.sp
          · simpa [h3] using h.dq
          · simp [h1, upd_co, h.su]
          · simp [h1, upd_co, h.rl]
          · intro fd w; simpa [h1, h4, upd_co] using h.ev fd w
          · simpa [h1, upd_co] using hc (by simpa using ht)

omit hp in
theorem finishLock_cof (m : Nat) (rd : Bool) (dl : Int) (b : Blk) (hb : BlkC b (s.co i).call dl) (h3 : rd = true → b = .lock true)
    (h2 : b ≠ .susp) (h6 : b ≠ .wait) : CoF i (finishLock s i m rd dl b) := by
  unfold finishLock
  refine CoF.pause ?_ ?_ ?_ ?_ ?_ ?_ ?_ ?_
  · simp [hcur]
  · simp [upd_co, h.pa]
  · simpa using h.sp
  · simpa using h.dq
  · simp [upd_co, h.su, h2]
  · simpa [upd_co] using h3
  · intro fd w; simpa [upd_co, h6] using h.ev fd w
  · simpa [upd_co] using hb

theorem cvEnq_cof (v m : Nat) (dl : Int) (hc : (s.co i).call = .cvWait v m dl) : CoF i (cvEnq s i v dl) := by
  unfold cvEnq
  exact cof_pause h hcur hp (by simp) (by simp) (by simp) (by simp) ⟨v, m, hc⟩ (by simp) (by simp)

theorem doStart_cof (hw : Sco.WF s.sco) (g : Option Nat) : CoF i (doStart s i g) := by
  have hi := cur_le hw hcur
  have hne : i ≠ s.sco.nextId + 1 := by omega
  refine Calm.cof (h.trans ?_ ?_ ?_ ?_ ?_ ?_) ?_
  all_goals simp [doStart, hne, upd_co, Pc.isBlk]

theorem doCall_cof (hw : Sco.WF s.sco) (c : Call) (hc : (s.co i).call = c) : CoF i (doCall s i c) := by
  have hf : CoF i { s with fault := true } := Calm.cof (h.trans rfl rfl rfl (fun _ => id) rfl rfl) hp
  have hcl := h.dlClear
  cases c with
  | none => exact h.cof hp
  | start => exact doStart_cof h hcur hp hw _
  | genStart =>
    simp only [doCall, doGenStart]
    have h' : Calm i { s with nchan := s.nchan + 1, chan := fun k => if k = s.nchan then some { rc := 1 } else s.chan k } := h.trans rfl rfl rfl (fun _ => id) rfl rfl
    exact doStart_cof h' hcur hp hw _
  | yield => exact coyield_calm h
  | sleep dl =>
    simp only [doCall, doSleep]; split
    · exact retv_calm h
    · exact cof_pause h hcur hp rfl rfl rfl rfl hc (by simp) (by simp)
  | join id dl =>
    simp only [doCall, doJoin]; split
    · exact retv_calm (h.trans rfl rfl rfl (fun _ x => x) rfl rfl)
    · split
      · exact retv_calm hcl
      · split
        · exact retv_calm hcl
        · exact cof_pause hcl hcur (by simpa [dlClear_co] using hp) (by simp) (by simp) (by simp) (by simp) ⟨id, by simpa [dlClear_co] using hc⟩ (by simp) (by simp)
  | suspend dl =>
    simp only [doCall, doSuspend]
    refine CoF.pause ?_ ?_ ?_ ?_ ?_ ?_ ?_ ?_
    · simp [hcur]
    · simp [upd_co, h.pa]
    · simpa using h.sp
    · simpa using h.dq
    · simp [upd_co]
    · simp [upd_co, h.rl]
    · intro fd w; simpa [upd_co] using h.ev fd w
    · simpa [upd_co, BlkC] using hc
  | resume id =>
    simp only [doCall, doResume]; split
    · exact retv_calm h
    · split
      · exact retv_calm h
      · exact retvResume_calm (h.trans rfl rfl rfl (fun _ h => h) rfl rfl)
  | exit => exact setPc_calm h rfl
  | getid => exact retv_calm h
  | lastid => exact retv_calm h
  | starterid => exact retv_calm h
  | stats => exact retv_calm (h.trans rfl rfl rfl (fun _ => id) rfl rfl)
  | chMake cap => exact retv_calm (h.trans rfl rfl rfl (fun _ => id) rfl rfl)
  | chRetain c =>
    simp only [doCall]; split
    · exact hf
    · exact retv_calm (h.trans rfl rfl rfl (fun _ => id) rfl rfl)
  | chRelease c =>
    refine retv_calm ?_
    have := chanRelease_frame s c
    exact h.trans (by simp) (by simp) (by simp) (by simp) (by simp) (by simp)
  | send c m dl => exact chanSend_cof h hcur hp c m dl (.inl ⟨c, m, hc⟩)
  | bcast c m =>
    simp only [doCall, chanBcast]; split
    · exact hf
    · split
      · exact retv_calm h
      · exact yfsr_calm (h.bcastTry _ _ _)
  | recv c dl => exact chanRecv_cof h hcur hp c false dl (fun _ => ⟨c, hc⟩)
  | tryrecv c => exact chanRecv_cof h hcur hp c true MAX (by simp)
  | close c =>
    simp only [doCall, chanClose]; split
    · exact hf
    · split
      · exact retv_calm h
      · exact chanClose1_cof h hcur hp _ _ _
  | select cs dl => exact chanSelect_cof h hcur hp cs false dl (fun _ => ⟨cs, hc⟩)
  | tryselect cs => exact chanSelect_cof h hcur hp cs true MAX (by simp)
  | chCase c =>
    simp only [doCall, chanCase]; split
    · exact hf
    · split
      · exact retv_calm (h.upd (fun c => by simp))
      · exact retv_calm h
  | genYield m dl =>
    simp only [doCall, doGenYield]; split
    · exact retv_calm h
    · exact chanSend_cof h hcur hp _ m dl (.inr ⟨m, hc⟩)
  | lock m dl =>
    simp only [doCall, muLock]; split
    · exact retv_calm hcl
    · split
      · exact finishLock_cof hcl (by simpa using hcur) _ _ _ _ ⟨m, by simpa [dlClear_co] using hc⟩ (by simp) (by simp) (by simp)
      · exact retv_calm (hcl.trans rfl rfl rfl (fun _ => id) rfl rfl)
  | rdlock m dl =>
    simp only [doCall, muRdlock]; split
    · exact retv_calm hcl
    · split
      · exact finishLock_cof hcl (by simpa using hcur) _ _ _ _ ⟨m, by simpa [dlClear_co] using hc⟩ (by simp) (by simp) (by simp)
      · exact retv_calm (hcl.trans rfl rfl rfl (fun _ => id) rfl rfl)
  | trylock m =>
    simp only [doCall, muTrylock]; split
    · exact retv_calm h
    · exact retv_calm (h.trans rfl rfl rfl (fun _ => id) rfl rfl)
  | tryrdlock m =>
    simp only [doCall, muTryrdlock]; split
    · exact retv_calm h
    · exact retv_calm (h.trans rfl rfl rfl (fun _ => id) rfl rfl)
  | unlock m =>
    have h1 : Calm i (fastUnlock (note s (.release m i)) m) := h.trans (by simp) (by simp) (by simp) (by simp) (by simp) (by simp)
    simp only [doCall, muUnlock]; split
    · exact yfsr_calm h1
    · exact coyield_calm h1
  | wgAdd w d =>
    simp only [doCall, wgAdd]; split
    · exact hf
    · split
      · exact retv_calm h
      · exact retv_calm (h.trans rfl rfl rfl (fun _ => id) rfl rfl)
  | wgDone w =>
    simp only [doCall, wgDone]; split
    · exact retv_calm h
    · split
      · split
        · exact retv_calm (h.trans rfl rfl rfl (fun _ => id) rfl rfl)
        · exact retvResume_calm (h.trans rfl rfl rfl (fun _ => id) rfl rfl)
        · exact yfsr_calm (h.trans (by simp) (by simp) (by simp) (by simp) (by simp) (by simp))
      · exact retv_calm (h.trans rfl rfl rfl (fun _ => id) rfl rfl)
  | wgWait w dl =>
    simp only [doCall, wgWait]; split
    · exact retv_calm hcl
    · split
      · exact coyield_calm (hcl.trans rfl rfl rfl (fun _ => id) rfl rfl)
      · exact cof_pause hcl hcur (by simpa [dlClear_co] using hp) (by simp) (by simp) (by simp) (by simp) ⟨w, by simpa [dlClear_co] using hc⟩ (by simp) (by simp)
  | cvSignal v =>
    simp only [doCall, cvSignal]; split
    · exact retv_calm h
    · exact retvResume_calm (h.trans rfl rfl rfl (fun _ => id) rfl rfl)
  | cvBcast v =>
    simp only [doCall, cvBcast]
    exact yfsr_calm (h.trans (by simp) (by simp) (by simp) (by simp) (by simp) (by simp))
  | cvWait v m dl =>
    have h1 : Calm i (fastUnlock (note s (.release m i)) m) := h.trans (by simp) (by simp) (by simp) (by simp) (by simp) (by simp)
    simp only [doCall, cvWait]; split
    · exact retv_calm (h.upd (fun c => by simp))
    · split
      · exact yfsr_calm h1
      · exact cvEnq_cof h1 (by simpa using hcur) (by simpa using hp) v m dl (by simpa using hc)
  | cancel id dl => exact setPc_calm h rfl
  | setType a => exact retv_calm (h.upd (fun c => by simp))
  | setState e => exact retv_calm (h.upd (fun c => by simp))
  | cpush x => exact retv_calm (h.upd (fun c => by simp))
  | cpop e =>
    simp only [doCall, doCpop]; split
    · exact hf
    · refine retv_calm ?_
      split
      · exact h.trans (by simp [upd_co]) (by simp [upd_co]) (by simp [upd_co]) (by simp) rfl rfl
      · exact h.upd (fun c => by simp)
  | sigWatch n =>
    simp only [doCall, doSigWatch]; split
    · exact retv_calm h
    · split
      · exact retv_calm h
      · exact retv_calm (h.trans (by simp [upd]) (by simp [upd]) (by simp [upd]) (by simp) rfl rfl)
  | sigUnwatch n =>
    simp only [doCall, doSigUnwatch]; split
    · exact retv_calm h
    · split
      · exact retv_calm (h.trans (by simp [upd]) (by simp [upd]) (by simp [upd]) (by simp) rfl rfl)
      · exact retv_calm h
  | sigWait dl =>
    simp only [doCall, doSigWait]; split
    · exact retv_calm h
    · split
      · exact retv_calm (h.upd (fun c => by simp))
      · refine CoF.pause ?_ ?_ ?_ ?_ ?_ ?_ ?_ ?_
        · simp [hcur]
        · simp [upd_co, h.pa]
        · simpa using h.sp
        · simpa using h.dq
        · simp [upd_co, h.su]
        · simp [upd_co, h.rl]
        · intro fd w; simpa [upd_co] using h.ev fd w
        · simpa [upd_co, BlkC] using hc
  | wait fd w dl =>
    simp only [doCall, doWait]
    refine CoF.pause ?_ ?_ ?_ ?_ ?_ ?_ ?_ ?_
    · simp [hcur]
    · simp [h.pa]
    · simpa using h.sp
    · simpa using h.dq
    · simp [h.su]
    · simp [h.rl]
    · intro fd' w'
      simp only [mem_evInsert, Prod.mk.injEq, and_true, h.ev fd' w', or_false, true_and, hc, Call.wait.injEq]
      constructor
      · rintro ⟨a, b⟩; exact ⟨dl, a.symm, b.symm, rfl⟩
      · rintro ⟨_, a, b, _⟩; exact ⟨a.symm, b.symm⟩
    · exact ⟨fd, w, hc⟩
  | work => exact setPc_calm (h.trans rfl rfl rfl (fun _ => id) rfl rfl) rfl

end


theorem unpause_calm {s : S} {i : Nat} {b : Blk} (h : CoF i s) (hc : i ∉ s.sco.paused) (hp : (s.co i).pc = .blk b) (hb1 : b ≠ .susp) (hb2 : b ≠ .wait) :
    ((unpause s i).co i).paused = false ∧ ((unpause s i).co i).suspended = false ∧ i ∉ (unpause s i).sco.paused ∧ i ∉ (unpause s i).dlq ∧
    (∀ fd w, (fd, w, i) ∉ (unpause s i).evw) := by
  have hs : (s.co i).suspended = false := by
    cases e : (s.co i).suspended with
    | false => rfl
    | true => have := h.su.mp e; rw [hp] at this; simp at this; exact absurd this hb1
  have he : ∀ fd w, (fd, w, i) ∉ s.evw := fun fd w hm => by
    have := ((h.ev fd w).mp hm).1; rw [hp] at this; simp at this; exact hb2 this
  unfold unpause; split
  · exact ⟨by simp [upd], by simpa [upd] using hs, hc, by simp, he⟩
  · rename_i hpa
    replace hpa : (s.co i).paused = false := by simpa using hpa
    exact ⟨hpa, hs, hc, fun hd => by have := (h.dq.mp hd).1; rw [hpa] at this; simp at this, he⟩

theorem unpause_dlq {s : S} {i : Nat} (h : CoF i s) : i ∉ (unpause s i).dlq ∧ ((unpause s i).co i).paused = false := by
  unfold unpause; split
  · exact ⟨by simp, by simp [upd]⟩
  · rename_i hpa
    replace hpa : (s.co i).paused = false := by simpa using hpa
    exact ⟨fun hd => by have := (h.dq.mp hd).1; rw [hpa] at this; simp at this, hpa⟩

theorem unpause_rl {s : S} {i : Nat} : ((unpause s i).co i).rlocked = (s.co i).rlocked := by
  unfold unpause; split
  · simp [upd]
  · rfl

theorem afterBlk_calm {s : S} {i : Nat} {b : Blk} (h : CoF i s) (hc : i ∉ s.sco.paused) (hp : (s.co i).pc = .blk b) :
    CoF i (afterBlk (preBlk (unpause s i) i b) i b) := by
  obtain ⟨q1, q2, q3, q4, q5, q6, q7⟩ : (preBlk (unpause s i) i b).co = (unpause s i).co ∧ (preBlk (unpause s i) i b).sco = (unpause s i).sco ∧
      (preBlk (unpause s i) i b).dlq = (unpause s i).dlq ∧ (preBlk (unpause s i) i b).evw = (unpause s i).evw ∧
      (unpause s i).sco = s.sco ∧ (unpause s i).evw = s.evw ∧ ((unpause s i).co i).suspended = (s.co i).suspended := by
    refine ⟨?_, ?_, ?_, ?_, ?_, ?_, ?_⟩
    · exact (preBlk_frame _ _ _).2.1
    · unfold preBlk noteWithdraw; (repeat' split) <;> rfl
    · unfold preBlk noteWithdraw; (repeat' split) <;> rfl
    · unfold preBlk noteWithdraw; (repeat' split) <;> rfl
    · simp
    · simp
    · unfold unpause; split
      · simp [upd]
      · rfl
  obtain ⟨hd, hpa⟩ := unpause_dlq h
  have hrl : ((unpause s i).co i).rlocked = true → b = .lock true := by
    rw [unpause_rl]; intro hr; have := h.rl hr; rw [hp] at this; simpa using this
  generalize preBlk (unpause s i) i b = u at *
  generalize unpause s i = w at *
  by_cases hb1 : b = .susp
  · subst hb1
    have hrl' : (w.co i).rlocked = false := by cases e : (w.co i).rlocked with | false => rfl | true => simp [e] at hrl
    have he : ∀ fd w, (fd, w, i) ∉ s.evw := fun fd w hm => by
      have := ((h.ev fd w).mp hm).1; rw [hp] at this; simp at this
    simp only [afterBlk]
    refine retv_calm ⟨?_, ?_, ?_, ?_, ?_, ?_⟩
    · simp [dlClear_co, upd_co, q1, hpa]
    · simp [dlClear_co, upd_co]
    · simp [dlClear_co, upd_co, q1, hrl']
    · simpa [q2, q5] using hc
    · simpa [q3] using hd
    · intro fd w; simpa [q4, q6] using he fd w
  · by_cases hb2 : b = .wait
    · subst hb2
      have hrl' : (w.co i).rlocked = false := by cases e : (w.co i).rlocked with | false => rfl | true => simp [e] at hrl
      have hs : (s.co i).suspended = false := by
        cases e : (s.co i).suspended with
        | false => rfl
        | true => have := h.su.mp e; rw [hp] at this; simp at this
      simp only [afterBlk]
      refine retv_calm ⟨?_, ?_, ?_, ?_, ?_, ?_⟩
      · simp [dlClear_co, q1, hpa]
      · simp [dlClear_co, q1, q7, hs]
      · simp [dlClear_co, q1, hrl']
      · simpa [q2, q5] using hc
      · simpa [q3] using hd
      · intro fd w; simp
    · have hs : (w.co i).suspended = false := by
        rw [q7]
        cases e : (s.co i).suspended with
        | false => rfl
        | true => have := h.su.mp e; rw [hp] at this; simp at this; exact absurd this hb1
      have he : ∀ fd w, (fd, w, i) ∉ u.evw := fun fd w hm => by
        rw [q4, q6] at hm
        have := ((h.ev fd w).mp hm).1; rw [hp] at this; simp at this; exact hb2 this
      have hd' : i ∉ u.dlq := by rw [q3]; exact hd
      have hc' : i ∉ u.sco.paused := by rw [q2, q5]; exact hc
      have hpa' : (u.co i).paused = false := by rw [q1]; exact hpa
      have hs' : (u.co i).suspended = false := by rw [q1]; exact hs
      have hrl' : (∀ r, b ≠ .lock r) → (u.co i).rlocked = false := by
        intro hb; rw [q1]; cases e : (w.co i).rlocked with | false => rfl | true => exact absurd (hrl e) (hb true)
      have key : ∀ (t : S) (p : Pc), p.isBlk = false → (t.co i).paused = (u.co i).paused → (t.co i).suspended = (u.co i).suspended →
          (t.co i).rlocked = false → t.sco = u.sco → t.dlq = u.dlq → t.evw = u.evw → CoF i (setPc t i p) := by
        intro t p hp' a1 a2 a3 a4 a5 a6
        exact setPc_calm ⟨by rw [a1]; exact hpa', by rw [a2]; exact hs', a3, by rw [a4]; exact hc', by rw [a5]; exact hd', by rw [a6]; exact he⟩ hp'
      cases b with
      | susp => exact absurd rfl hb1
      | wait => exact absurd rfl hb2
      | lock r =>
        simp only [afterBlk]
        refine key _ _ rfl ?_ ?_ ?_ ?_ ?_ ?_ <;> simp [dlClear_co, upd_co]
      | recv =>
        have hrl' := hrl' (by simp)
        simp only [afterBlk]
        split
        · refine key _ _ rfl ?_ ?_ ?_ ?_ ?_ ?_ <;> simp [dlClear_co, upd_co, hrl']
        · split
          · refine key _ _ rfl ?_ ?_ ?_ ?_ ?_ ?_ <;> simp [dlClear_co, upd_co, hrl']
          · refine key _ _ rfl ?_ ?_ ?_ ?_ ?_ ?_ <;> simp [dlClear_co, upd_co, hrl']
      | relock =>
        simp only [afterBlk]
        split
        · refine key _ _ rfl ?_ ?_ ?_ ?_ ?_ ?_ <;> simp [dlClear_co, upd_co]
        · split
          · refine key _ _ rfl ?_ ?_ ?_ ?_ ?_ ?_ <;> simp [dlClear_co, upd_co]
          · refine key _ _ rfl ?_ ?_ ?_ ?_ ?_ ?_ <;> simp [dlClear_co, upd_co]
      | _ =>
        have hrl' := hrl' (by simp)
        simp only [afterBlk]
        refine key _ _ rfl ?_ ?_ ?_ ?_ ?_ ?_ <;> simp [dlClear_co, upd_co, hrl', selRm]

theorem schedAll_keep (s : S) (L : LName) (q : List Node) : (schedAll s L q).co = s.co ∧ (schedAll s L q).sco = s.sco ∧ (schedAll s L q).dlq = s.dlq ∧ (schedAll s L q).evw = s.evw :=
  ⟨by simp, by simp, by simp, by simp⟩

theorem exitNotify_cof {s : S} {i : Nat} (h : Calm i s) (hcur : s.sco.cur = some i) (hp : (s.co i).pc.isBlk = false) (a : Bool) : CoF i (exitNotify s i a) := by
  unfold exitNotify
  extract_lets t1 qc t2 qj t3 sched
  have h1 : t3.co = s.co ∧ t3.sco = s.sco ∧ t3.dlq = s.dlq ∧ t3.evw = s.evw := by
    simp [t3, t2, t1]
  obtain ⟨e1, e2, e3, e4⟩ := h1
  have hc : Calm i t3 := h.trans (by rw [e1]) (by rw [e1]) (by rw [e1]) (by rw [e2]; exact fun _ => id) e3 e4
  clear_value t3
  split
  · exact setPc_calm hc rfl
  · split
    · exact Calm.cof (hc.trans rfl rfl rfl (fun _ => id) rfl rfl) (by rw [e1]; exact hp)
    · split
      · exact setPc_calm hc rfl
      · exact chanClose1_cof hc (by rw [e2]; exact hcur) (by rw [e1]; exact hp) _ _ _

theorem tauCo_cof {s s' : S} {i : Nat} (h : CoF i s) (hw : Sco.WF s.sco) (hcur : s.sco.cur = some i) (hs : tauCo s i = some s') : CoF i s' := by
  have hc : i ∉ s.sco.paused := by
    have := hw.nodup; simp only [Sco.everybody, hcur] at this
    intro hm; simp [hm] at this
  unfold tauCo at hs
  split at hs
  · simp at hs
  · simp at hs
  · simp at hs
  · rename_i v e
    have hcm := h.calm hc (by simp [e, Pc.isBlk])
    simp only [Option.some.injEq] at hs; subst hs
    unfold doRet; split
    · exact setPc_calm (hcm.trans rfl rfl rfl (fun _ => id) rfl rfl) rfl
    · exact (hcm.trans (by simp [upd_co]) (by simp [upd_co]) (by simp [upd_co]) (by simp) (by simp) (by simp)).cof (by simp [upd_co, Pc.isBlk])
  · rename_i n a e
    have hcm := h.calm hc (by simp [e, Pc.isBlk])
    split at hs
    · simp only [Option.some.injEq] at hs; subst hs
      exact setPc_calm (hcm.trans rfl rfl rfl (fun _ => id) rfl rfl) rfl
    · split at hs
      · simp only [Option.some.injEq] at hs; subst hs; exact setPc_calm hcm rfl
      · simp only [Option.some.injEq] at hs; subst hs; exact coyield_calm hcm
  · rename_i n a e
    have hcm := h.calm hc (by simp [e, Pc.isBlk])
    simp only [Option.some.injEq] at hs; subst hs; exact coyield_calm hcm
  · rename_i a e
    have hcm := h.calm hc (by simp [e, Pc.isBlk])
    have hnb : (s.co i).pc.isBlk = false := by simp [e, Pc.isBlk]
    have hf : CoF i { s with fault := true } := Calm.cof (hcm.trans rfl rfl rfl (fun _ => id) rfl rfl) hnb
    simp only [Option.some.injEq] at hs; subst hs
    cases a with
    | ret v => exact retv_calm hcm
    | condEnq =>
      simp only [doAft]; split
      · rename_i hcl; exact cvEnq_cof hcm hcur hnb _ _ _ hcl
      · exact hf
    | genRel x y =>
      simp only [doAft]; split
      · refine setPc_calm (hcm.trans ?_ ?_ ?_ ?_ ?_ ?_) rfl <;> simp [upd_co]
      · exact hf
    | exitTail x y =>
      simp only [doAft]; split
      · exact yfsr_calm hcm
      · exact setPc_calm hcm rfl
    | fin x =>
      simp only [doAft, doFin]
      refine Calm.cof (hcm.trans ?_ ?_ ?_ ?_ ?_ ?_) ?_
      · simp [setPc_co]
      · simp [setPc_co]
      · simp [setPc_co]
      · simp only; split <;> simp
      · simp
      · simp
      · simp [setPc_co, Pc.isBlk]
  · rename_i k c v e
    have hcm := h.calm hc (by simp [e, Pc.isBlk])
    simp only [Option.some.injEq] at hs; subst hs
    exact retv_calm (hcm.trans rfl rfl rfl (fun _ => id) rfl rfl)
  · rename_i b e
    simp only [Option.some.injEq] at hs; subst hs
    exact afterBlk_calm h hc e
  · rename_i e
    have hcm := h.calm hc (by simp [e, Pc.isBlk])
    have hnb : (s.co i).pc.isBlk = false := by simp [e, Pc.isBlk]
    have hf : CoF i { s with fault := true } := Calm.cof (hcm.trans rfl rfl rfl (fun _ => id) rfl rfl) hnb
    split at hs
    · rename_i id dl hcl
      simp only [Option.some.injEq] at hs; subst hs
      have hcl' := hcm.dlClear
      unfold doCancel
      split
      · exact retv_calm hcm
      · split
        · exact retv_calm hcl'
        · dsimp only
          split
          · refine Calm.cof (hcl'.trans ?_ ?_ ?_ ?_ ?_ ?_) ?_
            · simp [scoResume, setPc_co, upd_co]; split <;> simp [*]
            · simp [scoResume, setPc_co, upd_co]; split <;> simp [*]
            · simp [scoResume, setPc_co, upd_co]; split <;> simp [*]
            · exact sub_resume _ _
            · simp [scoResume]
            · simp [scoResume]
            · simp [scoResume, setPc_co, Pc.isBlk]
          · exact cof_pause hcl' hcur (by simpa [dlClear_co] using hnb) (by simp) (by simp) (by simp) (by simp) ⟨id, by simpa [dlClear_co] using hcl⟩ (by simp) (by simp)
    · simp only [Option.some.injEq] at hs; subst hs; exact hf
  · rename_i e
    have hcm := h.calm hc (by simp [e, Pc.isBlk])
    have hnb : (s.co i).pc.isBlk = false := by simp [e, Pc.isBlk]
    have hf : CoF i { s with fault := true } := Calm.cof (hcm.trans rfl rfl rfl (fun _ => id) rfl rfl) hnb
    split at hs
    · rename_i v m dl hcl
      simp only [Option.some.injEq] at hs; subst hs
      have hcl' := hcm.dlClear
      unfold doRelock
      split
      · exact retv_calm (hcm.trans rfl rfl rfl (fun _ => id) rfl rfl)
      · split
        · exact setPc_calm (hcl'.trans rfl rfl rfl (fun _ => id) rfl rfl) rfl
        · split
          · exact setPc_calm hcl' rfl
          · exact finishLock_cof hcl' (by simpa using hcur) _ _ _ _ ⟨⟨v, m, dl, by simpa [dlClear_co] using hcl⟩, rfl⟩ (by simp) (by simp) (by simp)
    · simp only [Option.some.injEq] at hs; subst hs; exact hf
  · rename_i e
    have hcm := h.calm hc (by simp [e, Pc.isBlk])
    simp only [Option.some.injEq] at hs; subst hs
    exact retv_calm (hcm.trans rfl rfl rfl (fun _ => id) rfl rfl)
  · rename_i a e
    have hcm := h.calm hc (by simp [e, Pc.isBlk])
    have hnb : (s.co i).pc.isBlk = false := by simp [e, Pc.isBlk]
    simp only [Option.some.injEq] at hs; subst hs
    unfold doExit; split
    · split
      · refine Calm.cof (hcm.trans ?_ ?_ ?_ ?_ ?_ ?_) ?_ <;> simp [upd_co, hnb]
      · exact exitNotify_cof hcm hcur hnb _
    · exact exitNotify_cof hcm hcur hnb _

end Neco.Rt
