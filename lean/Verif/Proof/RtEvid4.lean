import Verif.Proof.RtEvid3
/-!
# What a coroutine itself does keeps its evidence: the beginning of a call
-/
namespace Neco.Rt
open Neco.Err

/-- a change that does not concern coroutine `i` -/
structure Ntr (i : Nat) (s t : S) : Prop where
  co : t.co i = s.co i
  log : lg i t = lg i s
  mem : ∀ L, .co i ∈ t.lists L ↔ .co i ∈ s.lists L
  jb : t.jobs = s.jobs
  clk : t.clock = s.clock
  sco : t.sco = s.sco

theorem Ntr.refl {i : Nat} {s : S} : Ntr i s s := ⟨rfl, rfl, fun _ => Iff.rfl, rfl, rfl, rfl⟩
theorem Ntr.trans {i : Nat} {s t u : S} (h : Ntr i s t) (g : Ntr i t u) : Ntr i s u :=
  ⟨g.co.trans h.co, g.log.trans h.log, fun L => (g.mem L).trans (h.mem L), g.jb.trans h.jb, g.clk.trans h.clk, g.sco.trans h.sco⟩
theorem Ntr.eqs {i : Nat} {s t : S} (co : t.co = s.co := by rfl) (lo : t.log = s.log := by rfl) (li : t.lists = s.lists := by rfl) (jb : t.jobs = s.jobs := by rfl) (clk : t.clock = s.clock := by rfl) (sco : t.sco = s.sco := by rfl) : Ntr i s t :=
  ⟨by rw [co], lg_of_log lo, fun L => by rw [li], jb, clk, sco⟩
theorem Ntr.note {i : Nat} {s : S} {e : Ev} (h : e.about i = false) : Ntr i s (note s e) :=
  ⟨rfl, by simp [h], fun _ => Iff.rfl, rfl, rfl, rfl⟩
theorem Ntr.upd {i r : Nat} {s : S} {f : Co → Co} (h : i ≠ r) : Ntr i s (upd s r f) :=
  ⟨by simp [upd_co, h], rfl, fun _ => Iff.rfl, rfl, rfl, rfl⟩
theorem Ntr.sched {i r : Nat} {s : S} (h : i ≠ r) : Ntr i s (schedResume s r) :=
  ⟨rfl, rfl, fun L => by rw [mem_sched]; simp [h], rfl, rfl, rfl⟩
/-- a queue keeps only nodes it had, and `i` is not in it -/
theorem Ntr.setList {i : Nat} {s : S} {L : LName} {q : List Node} (h1 : .co i ∉ s.lists L) (h2 : .co i ∉ q) : Ntr i s (setList s L q) :=
  ⟨rfl, rfl, fun K => by rw [setList_lists]; split <;> simp_all, rfl, rfl, rfl⟩

theorem Ntr.schedAll {i : Nat} {s : S} {L : LName} {q : List Node} (h : ∀ n ∈ q, n.owner ≠ i) : Ntr i s (schedAll s L q) := by
  induction q generalizing s with
  | nil => exact .refl
  | cons n q ih =>
    have hn := h n List.mem_cons_self
    exact ((Ntr.sched (Ne.symm hn)).trans (.note (by simp [Ev.about, hn]))).trans (ih (fun n hq => h n (List.mem_cons_of_mem _ hq)))

theorem Ntr.sendLoop {i : Nat} {s : S} {c : Nat} {m : Msg} {q : List Node} (h0 : .co i ∉ s.lists (.chanQ c)) (h : ∀ n ∈ q, n.owner ≠ i) : Ntr i s (sendLoop s c m q).1 := by
  induction q with
  | nil => exact .setList h0 (by simp)
  | cons n q ih =>
    have hn := h n List.mem_cons_self
    have hq : .co i ∉ q := fun hq => h _ (List.mem_cons_of_mem _ hq) rfl
    cases n with
    | co r =>
      simp only [Rt.sendLoop]
      have hn : r ≠ i := hn
      exact ((Ntr.setList h0 hq).trans (.upd (Ne.symm hn))).trans (.note (by simp [Ev.about, hn]))
    | case r k =>
      have hn : r ≠ i := hn
      simp only [Rt.sendLoop]; split
      · exact ih (fun n hq => h n (List.mem_cons_of_mem _ hq))
      · refine ((Ntr.setList h0 hq).trans (.upd (r := r) (f := fun x => { x with retIdx := k }) (Ne.symm hn))).trans (.trans (.eqs ?_ ?_ ?_ ?_ ?_ ?_) (.note (by simp [Ev.about, hn])))
        all_goals rfl

theorem Ntr.sendTry {i : Nat} {s : S} {c : Nat} {m : Msg} {ch : Chan} (h : ∀ n ∈ s.lists (.chanQ c), n.owner ≠ i) : Ntr i s (sendTry s c m ch).1 := by
  unfold Rt.sendTry; split
  · exact .sendLoop (fun hq => h _ hq rfl) h
  · exact .refl

theorem Ntr.bcastLoop {i : Nat} {s : S} {c : Nat} {m : Msg} {q : List Node} (h0 : .co i ∉ s.lists (.chanQ c)) (h : ∀ n ∈ q, n.owner ≠ i) : Ntr i s (bcastLoop s c m q).1 := by
  induction q generalizing s with
  | nil => exact .setList h0 (by simp)
  | cons n q ih =>
    have hn := h n List.mem_cons_self
    have hq : .co i ∉ q := fun hq => h _ (List.mem_cons_of_mem _ hq) rfl
    have ht := fun n hq => h n (List.mem_cons_of_mem _ hq)
    cases n with
    | co r =>
      simp only [Rt.bcastLoop]
      have hn : r ≠ i := hn
      have h1 : Ntr i s (schedResume (Rt.note (Rt.upd (Rt.setList s (.chanQ c) q) r (fun k => { k with rdat := m })) (.bcastTo c r m)) r) :=
        (((Ntr.setList h0 hq).trans (.upd (Ne.symm hn))).trans (.note (by simp [Ev.about, hn]))).trans (.sched (Ne.symm hn))
      exact h1.trans (ih (fun hx => h0 ((h1.mem _).mp hx)) ht)
    | case r k =>
      have hn : r ≠ i := hn
      simp only [Rt.bcastLoop]; split
      · exact ih h0 ht
      · have h1 := ((Ntr.setList h0 hq).trans (.upd (r := r) (f := fun x => { x with retIdx := k }) (Ne.symm hn)))
        have h2 := h1.trans (.eqs (t := { Rt.upd (Rt.setList s (.chanQ c) q) r (fun x => { x with retIdx := k }) with chan := fun k => if k = c then (s.chan c).map (fun ch => { ch with lok := true, lmsg := m }) else s.chan k }))
        have h3 := (h2.trans (.note (e := .bcastTo c r m) (by simp [Ev.about, hn]))).trans (.sched (r := r) (Ne.symm hn))
        exact h3.trans (ih (fun hx => h0 ((h3.mem _).mp hx)) ht)

theorem Ntr.bcastTry {i : Nat} {s : S} {c : Nat} {m : Msg} {ch : Chan} (h : ∀ n ∈ s.lists (.chanQ c), n.owner ≠ i) : Ntr i s (bcastTry s c m ch).1 := by
  unfold Rt.bcastTry; split
  · exact .bcastLoop (fun hq => h _ hq rfl) h
  · exact .refl

theorem Ntr.closeLoop {i : Nat} {s : S} {c : Nat} {q : List Node} (h0 : .co i ∉ s.lists (.chanQ c)) (h : ∀ n ∈ q, n.owner ≠ i) : Ntr i s (closeLoop s c q) := by
  induction q generalizing s with
  | nil => exact .setList h0 (by simp)
  | cons n q ih =>
    have hn := h n List.mem_cons_self
    have hq : .co i ∉ q := fun hq => h _ (List.mem_cons_of_mem _ hq) rfl
    have ht := fun n hq => h n (List.mem_cons_of_mem _ hq)
    cases n with
    | co r =>
      simp only [Rt.closeLoop]
      have hn : r ≠ i := hn
      have h1 : Ntr i s (schedResume (Rt.upd (Rt.setList s (.chanQ c) q) r (fun k => { k with cclosed := true })) r) :=
        ((Ntr.setList h0 hq).trans (.upd (Ne.symm hn))).trans (.sched (Ne.symm hn))
      exact h1.trans (ih (fun hx => h0 ((h1.mem _).mp hx)) ht)
    | case r k =>
      have hn : r ≠ i := hn
      simp only [Rt.closeLoop]; split
      · exact ih h0 ht
      · have h1 := ((Ntr.setList h0 hq).trans (.upd (r := r) (f := fun x => { x with retIdx := k, cclosed := true }) (Ne.symm hn)))
        have h2 := h1.trans (.eqs (t := { Rt.upd (Rt.setList s (.chanQ c) q) r (fun x => { x with retIdx := k, cclosed := true }) with chan := fun k => if k = c then (s.chan c).map (fun ch => { ch with lok := false }) else s.chan k }))
        have h3 := h2.trans (.sched (r := r) (Ne.symm hn))
        exact h3.trans (ih (fun hx => h0 ((h3.mem _).mp hx)) ht)

theorem Ntr.handoff {i : Nat} {s : S} {m : Nat} {q : List Node} (h0 : .co i ∉ s.lists (.muQ m)) (h : ∀ n ∈ q, n.owner ≠ i) : Ntr i s (handoff s m q) := by
  induction q generalizing s with
  | nil => exact .refl
  | cons n q ih =>
    have hn := h n List.mem_cons_self
    have hq : .co i ∉ q := fun hq => h _ (List.mem_cons_of_mem _ hq) rfl
    have ht := fun n hq => h n (List.mem_cons_of_mem _ hq)
    simp only [Rt.handoff]
    have h1 : Ntr i s (schedResume (Rt.setList s (.muQ m) q) n.owner) := (Ntr.setList h0 hq).trans (.sched (Ne.symm hn))
    split
    · have h2 : Ntr i s (Rt.note (Rt.setMu (schedResume (Rt.setList s (.muQ m) q) n.owner) m { (schedResume (Rt.setList s (.muQ m) q) n.owner).mu m with rlocked := ((schedResume (Rt.setList s (.muQ m) q) n.owner).mu m).rlocked + 1 }) (.grant m n.owner true)) :=
        (h1.trans (u := Rt.setMu (schedResume (Rt.setList s (.muQ m) q) n.owner) m { (schedResume (Rt.setList s (.muQ m) q) n.owner).mu m with rlocked := ((schedResume (Rt.setList s (.muQ m) q) n.owner).mu m).rlocked + 1 }) (.eqs)).trans
          (Ntr.note (i := i) (e := .grant m n.owner true) (by simpa [Ev.about] using hn))
      split
      · exact h2
      · split
        · exact h2.trans (ih (fun hx => h0 ((h2.mem _).mp hx)) ht)
        · exact h2
    · exact h1.trans (.note (by simp [Ev.about, hn]))

theorem Ntr.fastUnlock {i : Nat} {s : S} {m : Nat} (h : ∀ n ∈ s.lists (.muQ m), n.owner ≠ i) : Ntr i s (fastUnlock s m) := by
  have h0 : .co i ∉ s.lists (.muQ m) := fun hq => h _ hq rfl
  unfold Rt.fastUnlock; dsimp only; (repeat' split)
  · exact .refl
  · exact .eqs
  · exact .eqs
  · have h1 : Ntr i s (setMu s m { s.mu m with rlocked := 0 }) := .eqs
    exact h1.trans (.handoff h0 h)

/-- what a change by `i` itself does to its view: the events `es` about it, fewer flags -/
structure Out (i : Nat) (s t : S) (es : List Ev) : Prop where
  log : lg i t = es ++ lg i s
  ca : (t.co i).call = (s.co i).call
  gen : (t.co i).gen = (s.co i).gen
  dd : (t.co i).deadlined = true → (s.co i).deadlined = true
  cc : (t.co i).canceled = true → (s.co i).canceled = true
  mem : ∀ L, .co i ∈ t.lists L → .co i ∈ s.lists L
  jb : t.jobs = s.jobs
  clk : t.clock = s.clock

theorem Out.refl {i : Nat} {s : S} : Out i s s [] := ⟨rfl, rfl, rfl, fun h => h, fun h => h, fun _ h => h, rfl, rfl⟩
theorem Out.ntr {i : Nat} {s t u : S} {es : List Ev} (h : Out i s t es) (g : Ntr i t u) : Out i s u es :=
  ⟨by rw [g.log, h.log], by rw [g.co, h.ca], by rw [g.co, h.gen], by rw [g.co]; exact h.dd, by rw [g.co]; exact h.cc, fun L hx => h.mem L ((g.mem L).mp hx), g.jb.trans h.jb, g.clk.trans h.clk⟩
theorem Out.note {i : Nat} {s t : S} {es : List Ev} (h : Out i s t es) {e : Ev} (he : e.about i = true) : Out i s (note t e) (e :: es) :=
  ⟨by rw [lg_note_self, if_pos he, h.log]; rfl, h.ca, h.gen, h.dd, h.cc, h.mem, h.jb, h.clk⟩
theorem Out.upd {i : Nat} {s t : S} {es : List Ev} (h : Out i s t es) {f : Co → Co}
    (hf : ∀ k, (f k).call = k.call ∧ (f k).gen = k.gen ∧ ((f k).deadlined = true → k.deadlined = true) ∧ ((f k).canceled = true → k.canceled = true)) : Out i s (upd t i f) es := by
  have e : (Rt.upd t i f).co i = f (t.co i) := by simp [upd_co]
  obtain ⟨h1, h2, h3, h4⟩ := hf (t.co i)
  exact ⟨h.log, by rw [e, h1, h.ca], by rw [e, h2, h.gen], by rw [e]; exact fun x => h.dd (h3 x), by rw [e]; exact fun x => h.cc (h4 x), h.mem, h.jb, h.clk⟩
theorem Out.dlClear {i : Nat} {s t : S} {es : List Ev} (h : Out i s t es) : Out i s (dlClear t i) es := h.upd (fun k => by simp)
theorem Out.uncancel {i : Nat} {s t : S} {es : List Ev} (h : Out i s t es) : Out i s (Rt.upd t i (fun k => { k with canceled := false })) es := h.upd (fun k => by simp)
theorem Out.eqs {i : Nat} {s t u : S} {es : List Ev} (h : Out i s t es) (co : u.co = t.co := by rfl) (lo : u.log = t.log := by rfl) (li : u.lists = t.lists := by rfl) (jb : u.jobs = t.jobs := by rfl) (clk : u.clock = t.clock := by rfl) : Out i s u es :=
  ⟨by rw [lg_of_log lo]; exact h.log, by rw [co]; exact h.ca, by rw [co]; exact h.gen, by rw [co]; exact h.dd, by rw [co]; exact h.cc, by rw [li]; exact h.mem, jb.trans h.jb, clk.trans h.clk⟩

structure CoB (j : Nat) (s : S) : Prop where
  dd : (s.co j).deadlined = true → (s.co j).call ≠ .none → ∃ dl, callDl (s.co j).call = some dl ∧ dl < s.clock
  cc : (s.co j).canceled = true → ∃ k, .cancel k j ∈ lg j s
  st : (s.co j).call ≠ .none → (s.co j).call ≠ .work → .co j ∉ s.lists .iolist ∧ j ∉ s.jobs

theorem CoE.base {j : Nat} {s : S} (h : CoE j s) : CoB j s := ⟨h.dd, h.cc, h.st⟩

def plainPc : Pc → Bool
  | .user | .exitRun _ | .dead | .cancelTry => true
  | .yck _ (.ret _) | .yld _ (.ret _) | .go (.ret _) => false
  | .yck _ .condEnq | .yld _ .condEnq | .go .condEnq => false
  | .yck _ _ | .yld _ _ | .go _ => true
  | _ => false

theorem CoB.plain {j : Nat} {s : S} (h : CoB j s) (hp : plainPc (s.co j).pc = true) : CoE j s := by
  refine ⟨h.dd, h.cc, h.st, ?_, ?_, ?_, ?_, ?_, ?_⟩ <;> revert hp <;> generalize (s.co j).pc = p
  · intro h e; subst e; simp [plainPc] at h
  · intro h e; subst e; simp [plainPc] at h
  · intro h v hv; cases p <;> simp [retPc] at hv
    all_goals (try (rename_i a; cases a)) <;> simp_all [plainPc, retPc]
  · intro h k c v e; subst e; simp [plainPc] at h
  · rintro h (e | e)
    · subst e; simp [plainPc] at h
    · cases p <;> simp [condPc] at e
      all_goals (try (rename_i a; cases a)) <;> simp_all [plainPc, condPc]
  · intro h b e; subst e; simp [plainPc] at h

theorem CoB.ret {j : Nat} {s : S} {v : Int} (h : CoB j s) (hp : retPc (s.co j).pc = some v) (hr : RetOk j s v) : CoE j s := by
  refine ⟨h.dd, h.cc, h.st, ?_, ?_, ?_, ?_, ?_, ?_⟩ <;> revert hp <;> generalize (s.co j).pc = p
  · intro h e; subst e; simp [retPc] at h
  · intro h e; subst e; simp [retPc] at h
  · intro h v' hv; rw [h] at hv; cases hv; exact hr
  · intro h k c v e; subst e; simp [retPc] at h
  · rintro h (e | e)
    · subst e; simp [retPc] at h
    · cases p <;> simp [condPc] at e
      all_goals (try (rename_i a; cases a)) <;> simp_all [retPc, condPc]
  · intro h b e; subst e; simp [retPc] at h

theorem CoB.cond {j : Nat} {s : S} {q m : Nat} {dl : Int} (h : CoB j s) (hp : condPc (s.co j).pc = true) (hc : (s.co j).call = .cvWait q m dl)
    (hr : .release m j ∈ sn j s) : CoE j s := by
  refine ⟨h.dd, h.cc, h.st, ?_, ?_, ?_, ?_, fun _ => ⟨q, m, dl, hc, hr, ?_⟩, ?_⟩ <;> revert hp <;> generalize (s.co j).pc = p
  · intro h e; subst e; simp [condPc] at h
  · intro h e; subst e; simp [condPc] at h
  · intro h v hv; cases p <;> simp [retPc] at hv
    all_goals (try (rename_i a; cases a)) <;> simp_all [condPc, retPc]
  · intro h k c v e; subst e; simp [condPc] at h
  · intro h e; subst e; simp [condPc] at h
  · intro h b e; subst e; simp [condPc] at h

/-- what holds right after a call was made -/
structure Beg (i : Nat) (s : S) (c : Call) : Prop where
  ca : (s.co i).call = c
  ne : c ≠ .none
  sn : sn i s = []
  dd : (s.co i).deadlined = false
  cc : (s.co i).canceled = true → ∃ k, .cancel k i ∈ lg i s
  jb : i ∉ s.jobs
  fr : ∀ L n, n ∈ s.lists L → n.owner ≠ i
  cur : s.sco.cur = some i
  np : i ∉ s.sco.paused
  pa : (s.co i).paused = false
  pc : (s.co i).pc = .user

section
variable {i : Nat} {s : S} {c : Call} (b : Beg i s c)
include b

theorem Beg.base {t : S} {es : List Ev} (o : Out i s t es) (hes : ∀ e ∈ es, isCallOf i e = false) : CoB i t ∧ Rt.sn i t = es := by
  refine ⟨⟨?_, ?_, ?_⟩, ?_⟩
  · intro h; have := o.dd h; rw [b.dd] at this; simp at this
  · intro h; obtain ⟨k, hk⟩ := b.cc (o.cc h); exact ⟨k, by rw [o.log]; exact List.mem_append.mpr (.inr hk)⟩
  · intro _ _; exact ⟨fun hm => b.fr _ _ (o.mem _ hm) rfl, by rw [o.jb]; exact b.jb⟩
  · rw [sn_ext o.log hes, b.sn, List.append_nil]

theorem Beg.retOk {t : S} {es : List Ev} (o : Out i s t es) (hes : ∀ e ∈ es, isCallOf i e = false) {v : Int}
    (hv : v = CANCELED → (s.co i).canceled = true) (hT : v = TIMEDOUT → ∃ dl, callDl c = some dl ∧ dl < s.clock)
    (hok : CallOk i c (t.co i).gen v (t.co i).rdat es s.clock) : RetOk i t v := by
  refine ⟨?_, ?_, ?_⟩
  · intro h; obtain ⟨k, hk⟩ := b.cc (hv h); exact ⟨k, by rw [o.log]; exact List.mem_append.mpr (.inr hk)⟩
  · intro h; rw [o.ca, b.ca, o.clk]; exact hT h
  · rw [(b.base o hes).2, o.ca, b.ca, o.clk]; exact hok

theorem Beg.retX {t : S} {es : List Ev} (o : Out i s t es) (hes : ∀ e ∈ es, isCallOf i e = false) {v : Int} (hp : retPc (t.co i).pc = some v)
    (hv : v = CANCELED → (s.co i).canceled = true) (hT : v = TIMEDOUT → ∃ dl, callDl c = some dl ∧ dl < s.clock)
    (hok : CallOk i c (t.co i).gen v (t.co i).rdat es s.clock) : CoE i t :=
  (b.base o hes).1.ret hp (b.retOk o hes hv hT hok)

theorem Beg.retv {t : S} {es : List Ev} (o : Out i s t es) (hes : ∀ e ∈ es, isCallOf i e = false) {v : Int}
    (hv : v = CANCELED → (s.co i).canceled = true) (hT : v = TIMEDOUT → ∃ dl, callDl c = some dl ∧ dl < s.clock)
    (hok : CallOk i c (t.co i).gen v (t.co i).rdat es s.clock) : CoE i (retv t i v) := by
  have o' : Out i s (Rt.retv t i v) es := o.upd (f := fun k => { k with pc := .ret v }) (fun k => by simp)
  exact b.retX o' hes (by simp [retv_co, retPc]) hv hT (by simpa [retv_co] using hok)

theorem Beg.retvR {t : S} {es : List Ev} (o : Out i s t es) (hes : ∀ e ∈ es, isCallOf i e = false) {v : Int} {r : Nat}
    (hv : v = CANCELED → (s.co i).canceled = true) (hT : v = TIMEDOUT → ∃ dl, callDl c = some dl ∧ dl < s.clock)
    (hok : CallOk i c (t.co i).gen v (t.co i).rdat es s.clock) : CoE i (scoResume (Rt.retv t i v) r) := by
  have o' : Out i s (Rt.retv t i v) es := o.upd (f := fun k => { k with pc := .ret v }) (fun k => by simp)
  have o'' : Out i s (scoResume (Rt.retv t i v) r) es := o'.eqs
  exact b.retX o'' hes (by simp [scoResume, retv_co, retPc]) hv hT (by simpa [scoResume, retv_co] using hok)

theorem Beg.yld {t : S} {es : List Ev} (o : Out i s t es) (hes : ∀ e ∈ es, isCallOf i e = false) {v : Int} {n : Nat}
    (hv : v = CANCELED → (s.co i).canceled = true) (hT : v = TIMEDOUT → ∃ dl, callDl c = some dl ∧ dl < s.clock)
    (hok : CallOk i c (t.co i).gen v (t.co i).rdat es s.clock) : CoE i (coyield t i n (.ret v)) := by
  have o' : Out i s (setPc t i (.yck n (.ret v))) es := o.upd (fun k => by simp)
  have o'' : Out i s (coyield t i n (.ret v)) es := o'.eqs
  exact b.retX o'' hes (by simp [coyield_co, retPc]) hv hT (by simpa [coyield_co] using hok)

theorem Beg.fault : CoE i { s with fault := true } :=
  (b.base (Out.refl.eqs (u := { s with fault := true })) (by simp)).1.plain (by show plainPc (s.co i).pc = true; rw [b.pc]; rfl)

theorem Beg.resOpt {t : S} {es : List Ev} (o : Out i s t es) (hes : ∀ e ∈ es, isCallOf i e = false) {v : Int} (r : Option Nat)
    (hv : v = CANCELED → (s.co i).canceled = true) (hT : v = TIMEDOUT → ∃ dl, callDl c = some dl ∧ dl < s.clock)
    (hok : CallOk i c (t.co i).gen v (t.co i).rdat es s.clock) : CoE i (resumeOpt (Rt.retv t i v) r) := by
  cases r with
  | none => exact b.retv o hes hv hT hok
  | some r => exact b.retvR o hes hv hT hok

/-- a call that fails at once because of a cancelation or its deadline -/
theorem Beg.code {dl : Int} (hne : dlCode s i dl ≠ OK) (hdl : callDl c = some dl) (hok : ∀ v, v ≠ OK → CallOk i c (s.co i).gen v (s.co i).rdat [] s.clock) :
    CoE i (Rt.retv (dlClear s i) i (dlCode s i dl)) := by
  refine b.retv Out.refl.dlClear (by simp) (fun h => dlCode_canceled.mp h) ?_ (by simpa [dlClear_co] using hok _ hne)
  intro h
  refine ⟨dl, hdl, ?_⟩
  unfold dlCode at h
  split at h
  · simp [CANCELED, TIMEDOUT] at h
  · split at h
    · rename_i h1; rcases h1 with h1 | h1
      · rw [b.dd] at h1; simp at h1
      · exact h1.2
    · simp [OK, TIMEDOUT] at h

theorem Beg.uncan (hc : (s.co i).canceled = true) (hok : CallOk i c (s.co i).gen CANCELED (s.co i).rdat [] s.clock) :
    CoE i (Rt.retv (Rt.upd s i (fun k => { k with canceled := false })) i CANCELED) :=
  b.retv Out.refl.uncancel (by simp) (fun _ => hc) (fun h => by simp [CANCELED, TIMEDOUT] at h) (by simpa [upd_co] using hok)

end

/-- what `copause` does to the evidence -/
theorem CoE.pause {i : Nat} {u : S} {dl : Int} {b : Blk} (hB : CoB i u) (hcur : u.sco.cur = some i) (hnp : i ∉ u.sco.paused)
    (hpa : (u.co i).paused = false) (hrs : .co i ∉ u.lists .resumers) (hr : ¬ reason i u b) (hO : Own i u b) : CoE i (copause u i dl b) := by
  have hlog : lg i (copause u i dl b) = lg i u := lg_of_log (by simp)
  have hsn : sn i (copause u i dl b) = sn i u := by unfold sn; rw [hlog]
  have hli : (copause u i dl b).lists = u.lists := by simp
  have hq : inQ i (copause u i dl b) ↔ inQ i u := by unfold inQ; rw [hli]
  have hco : ((copause u i dl b).co i).pc = .blk b ∧ ((copause u i dl b).co i).call = (u.co i).call ∧ ((copause u i dl b).co i).retIdx = (u.co i).retIdx ∧
      ((copause u i dl b).co i).gen = (u.co i).gen ∧ ((copause u i dl b).co i).rdat = (u.co i).rdat ∧ ((copause u i dl b).co i).cclosed = (u.co i).cclosed ∧
      ((copause u i dl b).co i).sigmask = (u.co i).sigmask ∧ ((copause u i dl b).co i).sav = (u.co i).sav ∧ ((copause u i dl b).co i).deadlined = (u.co i).deadlined ∧
      ((copause u i dl b).co i).canceled = (u.co i).canceled := by
    unfold copause; split <;> simp [setPc_co, upd_co]
  obtain ⟨p1, p2, p3, p4, p5, p6, p7, p8, p9, p10⟩ := hco
  have hck : (copause u i dl b).clock = u.clock := by simp
  have hjb : (copause u i dl b).jobs = u.jobs := by simp
  have hl0 : lg i (copause u i dl b) = [] ++ lg i u := by rw [hlog]; rfl
  have hr' : ¬ reason i (copause u i dl b) b := by rwa [reason_quiet hl0 (by simp) p2 p3 hq]
  have hO' : Own i (copause u i dl b) b := hO.quiet hl0 (by simp) p2 p3 p4 p5 p6 p7 p8 (by rw [hck]; exact Int.le_refl _) hq
  refine ⟨?_, ?_, ?_, ?_, ?_, ?_, ?_, ?_, ?_⟩
  · rw [p9, p2, hck]; exact hB.dd
  · rw [p10, hlog]; exact hB.cc
  · rw [p2, hli, hjb]; exact hB.st
  · rw [p1]; simp
  · rw [p1]; simp
  · rw [p1]; simp [retPc]
  · rw [p1]; simp
  · rw [p1]; simp [condPc]
  · rw [p1]; intro b' hb'; cases hb'
    refine ⟨?_, fun _ => .inl hr', ?_, hO'⟩
    · unfold copause; split
      · simp [setPc_co, hpa]
      · intro _ hn; exfalso; apply hn
        dsimp only
        rw [pause_paused _ (by simpa using hcur)]; simp
    · rw [hli]; intro h; exact absurd h hrs

/-- like `Out`, when `i` may have put itself into the queue `Q` -/
structure OutQ (i : Nat) (s t : S) (es : List Ev) (Q : Option LName) : Prop where
  log : lg i t = es ++ lg i s
  ca : (t.co i).call = (s.co i).call
  gen : (t.co i).gen = (s.co i).gen
  dd : (t.co i).deadlined = true → (s.co i).deadlined = true
  cc : (t.co i).canceled = true → (s.co i).canceled = true
  mem : ∀ L, .co i ∈ t.lists L ↔ Q = some L
  jb : t.jobs = s.jobs
  clk : t.clock = s.clock
  sco : t.sco = s.sco
  pa : (t.co i).paused = (s.co i).paused

theorem OutQ.upd {i : Nat} {s t : S} {es : List Ev} {Q : Option LName} (h : OutQ i s t es Q) {f : Co → Co}
    (hf : ∀ k, (f k).call = k.call ∧ (f k).gen = k.gen ∧ ((f k).deadlined = true → k.deadlined = true) ∧ ((f k).canceled = true → k.canceled = true) ∧ (f k).paused = k.paused) :
    OutQ i s (upd t i f) es Q := by
  have e : (Rt.upd t i f).co i = f (t.co i) := by simp [upd_co]
  obtain ⟨h1, h2, h3, h4, h5⟩ := hf (t.co i)
  exact ⟨h.log, by rw [e, h1, h.ca], by rw [e, h2, h.gen], by rw [e]; exact fun x => h.dd (h3 x), by rw [e]; exact fun x => h.cc (h4 x), h.mem, h.jb, h.clk, h.sco, by rw [e, h5, h.pa]⟩
theorem OutQ.eqs {i : Nat} {s t u : S} {es : List Ev} {Q : Option LName} (h : OutQ i s t es Q) (co : u.co = t.co := by rfl) (lo : u.log = t.log := by rfl) (li : u.lists = t.lists := by rfl) (jb : u.jobs = t.jobs := by rfl)
    (clk : u.clock = t.clock := by rfl) (sco : u.sco = t.sco := by rfl) : OutQ i s u es Q :=
  ⟨by rw [lg_of_log lo]; exact h.log, by rw [co]; exact h.ca, by rw [co]; exact h.gen, by rw [co]; exact h.dd, by rw [co]; exact h.cc, by rw [li]; exact h.mem, jb.trans h.jb, clk.trans h.clk, sco.trans h.sco, by rw [co]; exact h.pa⟩

section
variable {i : Nat} {s : S} {c : Call} (b : Beg i s c)
include b

theorem Beg.free {t : S} {es : List Ev} (o : Out i s t es) (hs : t.sco = s.sco) (hp : (t.co i).paused = (s.co i).paused) : OutQ i s t es none :=
  ⟨o.log, o.ca, o.gen, o.dd, o.cc, fun L => by simp; intro hm; exact b.fr _ _ (o.mem _ hm) rfl, o.jb, o.clk, hs, hp⟩

theorem Beg.push {t : S} {es : List Ev} (o : Out i s t es) (hs : t.sco = s.sco) (hp : (t.co i).paused = (s.co i).paused) (L : LName) :
    OutQ i s (Rt.push t L (.co i)) es (some L) := by
  refine ⟨o.log, o.ca, o.gen, o.dd, o.cc, fun K => ?_, o.jb, o.clk, hs, hp⟩
  rw [mem_push]
  constructor
  · rintro (⟨h, _⟩ | ⟨h, _⟩)
    · exact absurd rfl (b.fr _ _ (o.mem _ h))
    · rw [h]
  · intro h; cases h; exact .inr ⟨rfl, rfl⟩

theorem Beg.pause {u : S} {es : List Ev} {Q : Option LName} (o : OutQ i s u es Q) (hQ : Q ≠ some .resumers ∧ Q ≠ some .iolist) (hes : ∀ e ∈ es, isCallOf i e = false)
    {dl : Int} {bk : Blk} (hr : Rt.sn i u = es → (u.co i).call = c → (inQ i u ↔ Q ≠ none) → ¬ reason i u bk)
    (hO : Rt.sn i u = es → (u.co i).call = c → (inQ i u ↔ Q ≠ none) → Own i u bk) : CoE i (copause u i dl bk) := by
  have h1 : Rt.sn i u = es := by rw [sn_ext o.log hes, b.sn, List.append_nil]
  have h2 : (u.co i).call = c := by rw [o.ca, b.ca]
  have h3 : inQ i u ↔ Q ≠ none := by
    unfold inQ; constructor
    · rintro ⟨L, _, _, h⟩; rw [(o.mem L).mp h]; simp
    · intro h
      cases Q with
      | none => simp at h
      | some L => exact ⟨L, fun e => hQ.1 (by rw [e]), fun e => hQ.2 (by rw [e]), (o.mem L).mpr rfl⟩
  refine CoE.pause ⟨?_, ?_, ?_⟩ (by rw [o.sco]; exact b.cur) (by rw [o.sco]; exact b.np) (by rw [o.pa]; exact b.pa) (fun h => hQ.1 ((o.mem _).mp h)) (hr h1 h2 h3) (hO h1 h2 h3)
  · intro h; have := o.dd h; rw [b.dd] at this; simp at this
  · intro h; obtain ⟨k, hk⟩ := b.cc (o.cc h); exact ⟨k, by rw [o.log]; exact List.mem_append.mpr (.inr hk)⟩
  · intro _ _; exact ⟨fun h => hQ.2 ((o.mem _).mp h), by rw [o.jb]; exact b.jb⟩

end

end Neco.Rt
