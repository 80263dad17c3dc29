import Verif.Proof.RtTame
/-!
# A coroutine that nobody cancels and that gives no deadline to a select or a cancelation leaves no wake-up behind
-/
namespace Neco.Rt
open Neco.Err

/-- the places at which a coroutine can be in the list of those to resume -/
def Blk.listed : Blk → Bool
  | .send | .recv | .sel | .lock _ | .relock | .wg | .cond | .join | .cancel | .sig => true
  | .sleep | .susp | .wait => false

structure CoT (j : Nat) (s : S) : Prop where
  nc : (s.co j).canceled = false
  cl : ∀ id dl, (s.co j).call = .cancel id dl → MAX ≤ dl
  sl : ∀ cs dl, (s.co j).call = .select cs dl → MAX ≤ dl
  dd : (s.co j).deadlined = true → (s.co j).pc.isBlk = true ∧ (s.co j).pc ≠ .blk .sel ∧ (s.co j).pc ≠ .blk .cancel
  rz : .co j ∈ s.lists .resumers → ∃ b, (s.co j).pc = .blk b ∧ b.listed = true ∧ (b = .sel → j ∈ s.sco.paused)
  io : .co j ∈ s.lists .iolist ∨ j ∈ s.jobs → (s.co j).pc = .workWait ∧ j ∈ s.sco.paused

theorem exitNotify_slim {i : Nat} {s : S} (fr : ∀ L n, L ≠ LName.resumers → L ≠ LName.iolist → n ∈ s.lists L → n.owner ≠ i) (a : Bool) : Slim i s (exitNotify s i a) := by
  unfold exitNotify
  extract_lets t0 qc t1 qj t2 sched
  have o0 : Slim i s t0 := ⟨fun h => h, fun _ _ h => h, rfl⟩
  have n1 : Ntr i t0 t1 := (Ntr.setList (s := t0) (fun h => fr (.cancelQ i) (.co i) (by simp) (by simp) h rfl) (by simp)).trans (.schedAll (fun n hn => fr (.cancelQ i) n (by simp) (by simp) hn))
  have m1 : ∀ L n, L ≠ .resumers → n ∈ t1.lists L → n ∈ s.lists L := by
    intro L n hL hn
    rcases schedAll_mem hn with h | h
    · exact setList_mem_sub h
    · exact absurd h hL
  have n2 : Ntr i t1 t2 := (Ntr.setList (fun h => fr (.joinQ i) (.co i) (by simp) (by simp) (m1 _ _ (by simp) h) rfl) (by simp)).trans (.schedAll (fun n hn => fr (.joinQ i) n (by simp) (by simp) (m1 _ _ (by simp) hn)))
  have m2 : ∀ L n, L ≠ .resumers → n ∈ t2.lists L → n ∈ s.lists L := by
    intro L n hL hn
    rcases schedAll_mem hn with h | h
    · exact m1 _ _ hL (setList_mem_sub h)
    · exact absurd h hL
  have o2 := (o0.ntr n1).ntr n2
  clear_value t2
  split
  · exact o2.pc
  · split
    · exact o2.fault
    · split
      · exact o2.pc
      · exact o2.trans (chanClose1_slim (fun L n h1 h2 hn => fr L n h1 h2 (m2 _ _ h1 hn)) _ _ _)

theorem doCancel_slim {i : Nat} {s : S} (id : Nat) (dl : Int) : Slim i s (doCancel s i id dl) := by
  unfold doCancel
  split
  · exact Slim.refl.ret
  split
  · exact Slim.refl.cl.ret
  dsimp only
  split
  · have h1 : Slim i s (upd (dlClear s i) id (fun k => { k with canceled := true })) := by
      refine Slim.refl.cl.trans ⟨?_, fun _ _ h => h, rfl⟩
      by_cases e : i = id
      · subst e; simp [upd_co]
      · simp [upd_co, e]
    exact Slim.res (Slim.pc h1.note)
  · exact Slim.pause (Slim.push (L := .cancelQ id) Slim.refl.cl (by simp) (by simp))

/-- a step of the running coroutine inside the library -/
theorem tauCo_slim {i : Nat} {s s' : S} (hL : InvL s) (hb : ∀ b, (s.co i).pc ≠ .blk b) (hs : tauCo s i = some s') : Slim i s s' := by
  have fr : ∀ L n, L ≠ LName.resumers → L ≠ LName.iolist → n ∈ s.lists L → n.owner ≠ i := by
    intro L n h1 h2 hn e
    have hf := hL.free (i := i) (by revert hb; cases (s.co i).pc <;> simp [queued])
    rcases hf L n hn e with h | h
    · exact h1 h
    · exact h2 h
  unfold tauCo at hs
  split at hs
  · cases hs
  · cases hs
  · cases hs
  · cases hs
    unfold doRet; split
    · exact Slim.refl.note.pc
    · exact Slim.upd (Slim.note Slim.refl) (by simp)
  · split at hs
    · cases hs; exact Slim.refl.note.pc
    · split at hs <;> cases hs
      · exact Slim.refl.pc
      · exact Slim.refl.yld
  · cases hs; exact Slim.refl.yld
  · rename_i a e
    cases hs
    cases a with
    | ret v => exact Slim.refl.ret
    | condEnq =>
      simp only [doAft]; split
      · unfold cvEnq; dsimp only
        exact Slim.pause (Slim.push (L := .cvQ _) Slim.refl (by simp) (by simp)).eqs
      · exact Slim.refl.fault
    | genRel x y =>
      simp only [doAft]; split
      · rename_i g hg
        have n1 : Ntr i s (chanRelease s g) := .eqs (by simp) (by simp) (by simp) (by simp) (by simp) (by simp)
        exact Slim.pc (Slim.upd (Slim.refl.ntr n1) (by simp))
      · exact Slim.refl.fault
    | exitTail x y =>
      simp only [doAft]; split
      · exact Slim.refl.yfsr
      · exact Slim.refl.pc
    | fin x =>
      simp only [doAft, doFin]
      have o1 : Slim i s { Rt.rm s (.co i) with pool := (Rt.rm s (.co i)).pool ++ [(s.co i, 0)] } := Slim.eqs (Slim.rm (n := .co i) Slim.refl)
      exact Slim.eqs (o1.pc (p := .dead))
  · cases hs; exact Slim.ret Slim.refl.eqs
  · rename_i b e; exact absurd e (hb b)
  · split at hs <;> cases hs
    · exact doCancel_slim _ _
    · exact Slim.refl.fault
  · split at hs <;> cases hs
    · unfold doRelock; split
      · exact Slim.ret (Slim.note Slim.refl.eqs)
      split
      · exact Slim.pc (Slim.note Slim.refl.cl)
      split
      · exact Slim.refl.cl.pc
      · exact finishLock_slim fr Slim.refl.cl _ _ _ _
    · exact Slim.refl.fault
  · cases hs; exact Slim.ret Slim.refl.eqs
  · rename_i a e
    cases hs
    unfold doExit; split
    · split
      · exact Slim.note (Slim.upd Slim.refl (by simp))
      · exact exitNotify_slim fr a
    · exact exitNotify_slim fr a

/-- a blocked coroutine that continues: it leaves the lists and forgets its deadline -/
theorem blk_slim {i : Nat} {s : S} {b : Blk} (hn : b = .cancel → (s.co i).deadlined = false) :
    Slim i s (afterBlk (preBlk (unpause s i) i b) i b) ∧ ((afterBlk (preBlk (unpause s i) i b) i b).co i).deadlined = false ∧
    (b.listed = true → b ≠ .sel → .co i ∉ (afterBlk (preBlk (unpause s i) i b) i b).lists .resumers) := by
  obtain ⟨es, o1, _⟩ := preBlk_out (unpause s i) i b
  have h0 : Slim i s (preBlk (unpause s i) i b) := (unpause_out s i).slim.trans o1.slim
  generalize preBlk (unpause s i) i b = u at *
  have hr : ∀ t : S, .co i ∉ (Rt.rm t (.co i)).lists .resumers := by intro t; simp [Rt.rm]
  cases b with
  | sleep => exact ⟨Slim.ret (Slim.cl h0.eqs), by simp [afterBlk, retv_co, dlClear_co], by simp [Blk.listed]⟩
  | send => exact ⟨Slim.ret (Slim.cl (Slim.rm h0.eqs)), by simp [afterBlk, retv_co, dlClear_co], fun _ _ => by simp [afterBlk, Rt.rm]⟩
  | recv =>
    simp only [afterBlk]
    have h1 : Slim i s (Rt.rm { u with nreceivers := u.nreceivers - 1 } (.co i)) := Slim.rm h0.eqs
    split
    · exact ⟨h1.cl.ret, by simp [retv_co, dlClear_co], fun _ _ => by simp [Rt.rm]⟩
    split
    · have h2 : Slim i s { Rt.rm { u with nreceivers := u.nreceivers - 1 } (.co i) with fault := (Rt.rm { u with nreceivers := u.nreceivers - 1 } (.co i)).fault || recvGone (Rt.rm { u with nreceivers := u.nreceivers - 1 } (.co i)) i } := h1.eqs
      exact ⟨Slim.ret (Slim.upd h2.cl (by simp)), by simp [retv_co, upd_co, dlClear_co], fun _ _ => by simp [Rt.rm]⟩
    · exact ⟨h1.cl.ret, by simp [retv_co, dlClear_co], fun _ _ => by simp [Rt.rm]⟩
  | sel => exact ⟨Slim.ret (Slim.cl (Slim.selRm h0.eqs)), by simp [afterBlk, retv_co, dlClear_co], by simp⟩
  | lock rd => exact ⟨Slim.ret (Slim.cl (Slim.upd (Slim.rm h0.eqs) (by simp))), by simp [afterBlk, retv_co, dlClear_co, upd_co], fun _ _ => by simp [afterBlk, Rt.rm]⟩
  | relock =>
    simp only [afterBlk]
    have h1 : Slim i s (upd (Rt.rm { u with nlocked := u.nlocked - 1 } (.co i)) i (fun k => { k with rlocked := false })) := Slim.upd (Slim.rm h0.eqs) (by simp)
    split
    · exact ⟨h1.cl.ret, by simp [retv_co, dlClear_co, upd_co], fun _ _ => by simp [Rt.rm]⟩
    split
    · exact ⟨h1.cl.note.pc, by simp [setPc_co, dlClear_co, upd_co], fun _ _ => by simp [Rt.rm]⟩
    · exact ⟨h1.cl.pc, by simp [setPc_co, dlClear_co, upd_co], fun _ _ => by simp [Rt.rm]⟩
  | wg => exact ⟨Slim.ret (Slim.cl (Slim.rm h0.eqs)), by simp [afterBlk, retv_co, dlClear_co], fun _ _ => by simp [afterBlk, Rt.rm]⟩
  | cond => exact ⟨Slim.pc (Slim.upd (Slim.cl (Slim.rm h0.eqs)) (by simp)), by simp [afterBlk, setPc_co, upd_co, dlClear_co], fun _ _ => by simp [afterBlk, Rt.rm]⟩
  | join => exact ⟨Slim.ret (Slim.cl (Slim.rm h0)), by simp [afterBlk, retv_co, dlClear_co], fun _ _ => by simp [afterBlk, Rt.rm]⟩
  | cancel =>
    refine ⟨Slim.pc (Slim.rm h0), ?_, fun _ _ => by simp [afterBlk, Rt.rm]⟩
    cases e : (((setPc (Rt.rm u (.co i)) i .cancelTry)).co i).deadlined with
    | false => exact e
    | true => have := (Slim.pc (p := .cancelTry) (Slim.rm (n := .co i) h0)).dd e; rw [hn rfl] at this; simp at this
  | susp => exact ⟨Slim.ret (Slim.cl (Slim.upd (f := fun k => { k with suspended := false }) h0.eqs (by simp))), by simp [afterBlk, retv_co, dlClear_co, upd_co], by simp [Blk.listed]⟩
  | sig => exact ⟨Slim.ret (Slim.cl (Slim.upd (Slim.rm h0.eqs) (by simp))), by simp [afterBlk, retv_co, dlClear_co, upd_co], fun _ _ => by simp [afterBlk, Rt.rm]⟩
  | wait => exact ⟨Slim.ret (Slim.cl h0.eqs), by simp [afterBlk, retv_co, dlClear_co], by simp [Blk.listed]⟩

/-- the history has no cancelation -/
theorem CoT.mv {j : Nat} {s t : S} (h : CoT j s) (hL : CoL j s) (hF : CoF j s) (hE : CoE j s) (hnc : ∀ k, .cancel k j ∉ lg j t) (m : Mv j s t) : CoT j t := by
  have isB : ∀ {b : Blk}, (s.co j).pc = .blk b → .co j ∉ s.lists .iolist ∧ j ∉ s.jobs := by
    intro b hb
    constructor
    · intro hi; have := (h.io (.inl hi)).1; rw [hb] at this; simp at this
    · intro hi; have := (h.io (.inr hi)).1; rw [hb] at this; simp at this
  -- a change of a blocked coroutine that leaves its record alone but for the results
  have key : ∀ {f : Co → Co} {es gone res up} (d : Dlt j f es gone res up s t)
      (hf : (f (s.co j)).canceled = (s.co j).canceled ∧ (f (s.co j)).call = (s.co j).call ∧ (f (s.co j)).pc = (s.co j).pc ∧ (f (s.co j)).deadlined = (s.co j).deadlined)
      (hr : res = true → ∃ b, (s.co j).pc = .blk b ∧ b.listed = true ∧ (b = .sel → j ∈ s.sco.paused ∧ up = false))
      (hu : up = true → (.co j ∈ t.lists .resumers → (s.co j).pc ≠ .blk .sel) ∧ (.co j ∉ t.lists .iolist ∧ j ∉ t.jobs)), CoT j t := by
    intro f es gone res up d ⟨f1, f2, f3, f4⟩ hr hu
    have hjb := jobs_of_count d.jb
    refine ⟨?_, ?_, ?_, ?_, ?_, ?_⟩
    · rw [d.co, f1]; exact h.nc
    · rw [d.co, f2]; exact h.cl
    · rw [d.co, f2]; exact h.sl
    · rw [d.co, f3, f4]; exact h.dd
    · intro hm
      rw [d.co, f3]
      rcases (d.mem _ _ rfl).mp hm with ⟨h1, h2⟩ | ⟨h1, _⟩
      · obtain ⟨b, b1, b2, b3⟩ := h.rz h1
        refine ⟨b, b1, b2, fun e => d.pz.mpr ⟨b3 e, ?_⟩⟩
        cases up with
        | false => rfl
        | true => exact absurd (e ▸ b1) ((hu rfl).1 hm)
      · obtain ⟨b, b1, b2, b3⟩ := hr h1
        exact ⟨b, b1, b2, fun e => d.pz.mpr (b3 e)⟩
    · intro hm
      rw [d.co, f3]
      have h1 : .co j ∈ s.lists .iolist ∨ j ∈ s.jobs := by
        rcases hm with hm | hm
        · rcases (d.mem _ _ rfl).mp hm with ⟨h1, _⟩ | ⟨_, _, h1⟩
          · exact .inl h1
          · simp at h1
        · exact .inr (hjb.mp hm)
      refine ⟨(h.io h1).1, d.pz.mpr ⟨(h.io h1).2, ?_⟩⟩
      cases up with
      | false => rfl
      | true => rcases hm with hm | hm
                · exact absurd hm (hu rfl).2.1
                · exact absurd hm (hu rfl).2.2
  have jobT : ∀ {f : Co → Co} {es gone res up} (d : Dlt j f es gone res up s t), .co j ∉ s.lists .iolist ∧ j ∉ s.jobs → .co j ∉ t.lists .iolist ∧ j ∉ t.jobs := by
    intro f es gone res up d ⟨h1, h2⟩
    refine ⟨fun hm => ?_, fun hm => h2 ((jobs_of_count d.jb).mp hm)⟩
    rcases (d.mem _ _ rfl).mp hm with ⟨h3, _⟩ | ⟨_, _, h3⟩
    · exact h1 h3
    · simp at h3
  -- a select whose result is not known yet sleeps
  have selP : (s.co j).pc = .blk .sel → (s.co j).retIdx = -1 → j ∈ s.sco.paused := by
    intro hp hr
    refine Classical.byContradiction fun hx => ?_
    have hdd : (s.co j).deadlined = false := by
      cases e : (s.co j).deadlined with
      | false => rfl
      | true => exact absurd hp (h.dd e).2.1
    cases hpa : (s.co j).paused with
    | false =>
      rcases hF.np (by rw [hp]; rfl) hpa with h1 | h1
      · rw [h.nc] at h1; simp at h1
      · rw [hdd] at h1; simp at h1
    | true =>
      rcases (hE.bk _ hp).wk hpa hx with h1 | h1 | h1
      · rw [h.nc] at h1; simp at h1
      · rw [hdd] at h1; simp at h1
      · exact h1 hr
  have notSel : ∀ {b : Blk}, (s.co j).pc = .blk b → b ≠ .sel → (s.co j).pc ≠ .blk .sel := by
    intro b hb hn; rw [hb]; simpa using hn
  have qB : ∀ {L : LName}, .co j ∈ s.lists L → L ≠ .resumers → L ≠ .iolist → ∃ b, (s.co j).pc = .blk b ∧ b.listed = true ∧ b ≠ .sel := by
    intro L hn h1 h2
    have hpl := hL.pl _ _ rfl hn
    cases L <;> simp only [place] at hpl
    · rcases hpl with ⟨h, _⟩ | ⟨h, _⟩ <;> exact ⟨_, h, rfl, by simp⟩
    · rcases hpl with ⟨h, _⟩ | ⟨h, _⟩ | ⟨h, _⟩ <;> exact ⟨_, h, rfl, by simp⟩
    · exact ⟨_, hpl.1, rfl, by simp⟩
    · exact ⟨_, hpl.1, rfl, by simp⟩
    · exact ⟨_, hpl.1, rfl, by simp⟩
    · exact ⟨_, hpl.1, rfl, by simp⟩
    · exact absurd rfl h1
    · exact ⟨_, hpl.1, rfl, by simp⟩
    · exact absurd rfl h2
  cases m with
  | same d => exact key d ⟨rfl, rfl, rfl, rfl⟩ (by simp) (by simp)
  | take c m hn hp hc d => exact key d ⟨rfl, rfl, rfl, rfl⟩ (by simp) (fun _ => ⟨fun _ => notSel hp (by simp), jobT d (isB hp)⟩)
  | takeCase c m k hn hp hc hr d =>
    refine key d ⟨rfl, rfl, rfl, rfl⟩ (by simp) (fun _ => ⟨fun hm => ?_, jobT d (isB hp)⟩)
    rcases (d.mem _ _ rfl).mp hm with ⟨h1, _⟩ | ⟨h1, _⟩
    · exact absurd hr ((hE.bk _ hp).rs h1)
    · simp at h1
  | bcast c m hn hp hc d => exact key d ⟨rfl, rfl, rfl, rfl⟩ (fun _ => ⟨_, hp, rfl, by simp⟩) (by simp)
  | bcastCase c m k hn hp hc hr d => exact key d ⟨rfl, rfl, rfl, rfl⟩ (fun _ => ⟨_, hp, rfl, fun _ => ⟨selP hp hr, rfl⟩⟩) (by simp)
  | close c hn hp hc d => exact key d ⟨rfl, rfl, rfl, rfl⟩ (fun _ => ⟨_, hp, rfl, by simp⟩) (by simp)
  | closeCase c k hn hp hc hr d => exact key d ⟨rfl, rfl, rfl, rfl⟩ (fun _ => ⟨_, hp, rfl, fun _ => ⟨selP hp hr, rfl⟩⟩) (by simp)
  | skip g hr hg d => exact key d ⟨rfl, rfl, rfl, rfl⟩ (by simp) (by simp)
  | sent c hn hp hc d => exact key d ⟨rfl, rfl, rfl, rfl⟩ (by simp) (fun _ => ⟨fun _ => notSel hp (by simp), jobT d (isB hp)⟩)
  | grant m rd hn hr d =>
    obtain ⟨b, b1, b2, b3⟩ := qB hn (by simp) (by simp)
    exact key d ⟨rfl, rfl, rfl, rfl⟩ (fun _ => ⟨b, b1, b2, fun e => absurd e b3⟩) (by simp)
  | wake L now hn hLL d =>
    obtain ⟨b, b1, b2, b3⟩ := qB hn (by rcases hLL with ⟨_, h⟩ | ⟨_, h⟩ | ⟨_, h⟩ | ⟨_, h⟩ <;> simp [h]) (by rcases hLL with ⟨_, h⟩ | ⟨_, h⟩ | ⟨_, h⟩ | ⟨_, h⟩ <;> simp [h])
    exact key d ⟨rfl, rfl, rfl, rfl⟩ (fun _ => ⟨b, b1, b2, fun e => absurd e b3⟩) (fun _ => ⟨fun _ => notSel b1 b3, jobT d (isB b1)⟩)
  | resumed i hp d =>
    have hp' := hF.su.mp hp
    exact key d ⟨rfl, rfl, rfl, rfl⟩ (by simp) (fun _ => ⟨fun _ => notSel hp' (by simp), jobT d (isB hp')⟩)
  | canceled i he d => exact absurd (by rw [d.log]; simp) (hnc i)
  | fromRes hn d =>
    obtain ⟨b, b1, b2, b3⟩ := h.rz hn
    refine key d ⟨rfl, rfl, rfl, rfl⟩ (by simp) (fun _ => ⟨fun hm => ?_, jobT d (isB b1)⟩)
    rcases (d.mem _ _ rfl).mp hm with ⟨_, h1⟩ | ⟨h1, _⟩
    · exact absurd ⟨rfl, rfl⟩ h1
    · simp at h1
  | fromIo hn d =>
    have hw := (h.io (.inl hn)).1
    refine key d ⟨rfl, rfl, rfl, rfl⟩ (by simp) (fun _ => ⟨fun _ => by rw [hw]; simp, fun hm => ?_, fun hm => ?_⟩)
    · rcases (d.mem _ _ rfl).mp hm with ⟨_, h1⟩ | ⟨h1, _⟩
      · exact absurd ⟨rfl, rfl⟩ h1
      · simp at h1
    · exact (hE.ww hw).2.2.2.1 hn |>.1 ((jobs_of_count d.jb).mp hm)
  | ready fd w es hn he hes d =>
    have hp := ((hF.ev fd w).mp hn).1
    exact key d ⟨rfl, rfl, rfl, rfl⟩ (by simp) (fun _ => ⟨fun _ => notSel hp (by simp), jobT d (isB hp)⟩)
  | sigTo n hn hm d =>
    have hp := (hL.pl _ _ rfl hn).1
    exact key d ⟨rfl, rfl, rfl, rfl⟩ (by simp) (fun _ => ⟨fun _ => notSel hp (by simp), jobT d (isB hp)⟩)
  | deadlined hn hd d =>
    have hpa := hF.dq.mp hn
    have hbl := hF.pb hpa.1
    obtain ⟨b, hp⟩ : ∃ b, (s.co j).pc = .blk b := by revert hbl; cases (s.co j).pc <;> simp [Pc.isBlk]
    have hns : b ≠ .sel := by
      rintro rfl
      obtain ⟨dl, ⟨cs, hb⟩, h2⟩ := hF.bc _ hp
      have h1 := h.sl cs dl hb
      have h3 := hpa.2
      rw [h2 hpa.1] at h3
      omega
    have hnk : b ≠ .cancel := by
      rintro rfl
      obtain ⟨dl, ⟨id, hb⟩, h2⟩ := hF.bc _ hp
      have h1 := h.cl id dl hb
      have h3 := hpa.2
      rw [h2 hpa.1] at h3
      omega
    have hjt := jobT d (isB hp)
    refine ⟨?_, ?_, ?_, ?_, ?_, ?_⟩
    · rw [d.co]; exact h.nc
    · rw [d.co]; exact h.cl
    · rw [d.co]; exact h.sl
    · rw [d.co]; intro _; exact ⟨hbl, notSel hp hns, by rw [hp]; simpa using hnk⟩
    · rw [d.co]; intro hm
      rcases (d.mem _ _ rfl).mp hm with ⟨h1, _⟩ | ⟨h1, _⟩
      · obtain ⟨b', b1, b2, _⟩ := h.rz h1
        refine ⟨b', b1, b2, fun e => ?_⟩
        subst e; exact absurd b1 (notSel hp hns)
      · simp at h1
    · intro hm; rcases hm with hm | hm
      · exact absurd hm hjt.1
      · exact absurd hm hjt.2
  | wdone hj co mem pz dl ev jb log clk =>
    refine ⟨?_, ?_, ?_, ?_, ?_, ?_⟩
    · rw [co]; exact h.nc
    · rw [co]; exact h.cl
    · rw [co]; exact h.sl
    · rw [co]; exact h.dd
    · rw [co, pz]; intro hm
      rcases (mem _ _ rfl).mp hm with h1 | h1
      · exact h.rz h1.1
      · simp at h1
    · rw [co, pz]; intro _; exact h.io (.inr hj)

theorem Mvs.lg_sub {j : Nat} {s t : S} (h : Mvs j s t) {e : Ev} (he : e ∈ lg j s) : e ∈ lg j t := by
  induction h with
  | refl => exact he
  | head a _ ih =>
    refine ih ?_
    cases a
    case wdone _ _ _ _ _ _ log _ => rw [log]; exact List.mem_cons_of_mem _ (List.mem_append.mpr (.inr he))
    all_goals (rename_i d; rw [d.log]; exact List.mem_append.mpr (.inr he))

theorem CoT.mvs {j : Nat} {s t : S} (m : Mvs j s t) (h : CoT j s) (hL : CoL j s) (hF : CoF j s) (hE : CoE j s) (hnc : ∀ k, .cancel k j ∉ lg j t) : CoT j t := by
  induction m with
  | refl => exact h
  | head a g ih => exact ih (h.mv hL hF hE (fun k hk => hnc k (g.lg_sub hk)) a) (hL.mv a) (hF.mv a) (hE.mv hL hF a) hnc

end Neco.Rt
