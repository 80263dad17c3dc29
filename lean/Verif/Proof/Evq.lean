import Verif.Spec.Evq
namespace Neco.Evq

theorem Reach.weak {ok ok' : S → Act → Prop} (h : ∀ s a, ok s a → ok' s a) {s : S} (r : Reach ok s) : Reach ok' s := by
  induction r with
  | init => exact .init
  | step _ ho hs ih => exact .step ih (h _ _ ho) hs

/-! ### waking -/

theorem mem_rouse {fd f : Nat} {wr : Bool} {l : List Waiter} {w : Waiter} (h : w ∈ rouse fd f wr l) :
    (w ∈ l ∧ ¬ (w.fd = fd ∧ w.wr = wr ∧ w.wake = .asleep)) ∨ ∃ v ∈ l, v.fd = fd ∧ v.wr = wr ∧ v.wake = .asleep ∧ w = { v with wake := .event f } := by
  unfold rouse at h
  obtain ⟨v, hv, rfl⟩ := List.mem_map.mp h
  split
  · rename_i hc; exact .inr ⟨v, hv, hc.1, hc.2.1, hc.2.2, rfl⟩
  · rename_i hc; exact .inl ⟨hv, hc⟩

/-- who is in the list after an event: somebody it did not concern, or somebody it woke -/
theorem mem_handle {s : S} {e : Entry} {l : List Waiter} {w : Waiter} (h : w ∈ handle s e l) :
    (w ∈ l ∧ ¬ (w.wake = .asleep ∧ w.fd = e.fd ∧ (e.report s).dir w.wr = true)) ∨
    ∃ v ∈ l, v.wake = .asleep ∧ v.fd = e.fd ∧ (e.report s).dir v.wr = true ∧ w = { v with wake := .event e.file } := by
  unfold handle at h
  have key : ∀ {m : List Waiter} {b : Bool} {x : Waiter}, x ∈ (if (e.report s).dir b = true then rouse e.fd e.file b m else m) →
      (x ∈ m ∧ ¬ (x.wake = .asleep ∧ x.fd = e.fd ∧ x.wr = b ∧ (e.report s).dir b = true)) ∨
      ∃ v ∈ m, v.wake = .asleep ∧ v.fd = e.fd ∧ v.wr = b ∧ (e.report s).dir b = true ∧ x = { v with wake := .event e.file } := by
    intro m b x hx
    split at hx
    · rename_i hd
      rcases mem_rouse hx with ⟨h1, h2⟩ | ⟨v, h1, h2, h3, h4, h5⟩
      · exact .inl ⟨h1, fun ⟨a, b, c, _⟩ => h2 ⟨b, c, a⟩⟩
      · exact .inr ⟨v, h1, h4, h2, h3, hd, h5⟩
    · rename_i hd; exact .inl ⟨hx, fun ⟨_, _, _, c⟩ => hd c⟩
  have e1 : (if (e.report s).inn = true then rouse e.fd e.file false l else l) = (if (e.report s).dir false = true then rouse e.fd e.file false l else l) := rfl
  simp only [e1] at h
  change w ∈ (if (e.report s).dir true = true then rouse e.fd e.file true (if (e.report s).dir false = true then rouse e.fd e.file false l else l)
    else (if (e.report s).dir false = true then rouse e.fd e.file false l else l)) at h
  rcases key (b := true) h with ⟨h1, h2⟩ | ⟨v, h1, h2, h3, h4, h5, h6⟩
  · rcases key (b := false) h1 with ⟨h3, h4⟩ | ⟨v, h3, h4, h5, h6, h7, h8⟩
    · refine .inl ⟨h3, fun ⟨a, b, c⟩ => ?_⟩
      cases hw : w.wr with
      | false => exact h4 ⟨a, b, hw, hw ▸ c⟩
      | true => exact h2 ⟨a, b, hw, hw ▸ c⟩
    · exact .inr ⟨v, h3, h4, h5, h6 ▸ h7, h8⟩
  · rcases key (b := false) h1 with ⟨h7, _⟩ | ⟨u, _, _, _, _, _, h8⟩
    · exact .inr ⟨v, h7, h2, h3, h4 ▸ h5, h6⟩
    · rw [h8] at h2; cases h2

/-- who is in the list after all events -/
theorem mem_handleAll {s : S} : ∀ {es : List Entry} {l : List Waiter} {w : Waiter}, w ∈ handleAll s es l →
    (w ∈ l ∧ ∀ e ∈ es, ¬ (w.wake = .asleep ∧ w.fd = e.fd ∧ (e.report s).dir w.wr = true)) ∨
    ∃ v ∈ l, ∃ e ∈ es, v.wake = .asleep ∧ v.fd = e.fd ∧ (e.report s).dir v.wr = true ∧ w = { v with wake := .event e.file }
  | [], l, w, h => .inl ⟨h, fun _ he => by cases he⟩
  | e :: q, l, w, h => by
    rcases mem_handleAll (es := q) h with ⟨h1, h2⟩ | ⟨v, h1, f, h2, h3, h4, h5, h6⟩
    · rcases mem_handle h1 with ⟨h3, h4⟩ | ⟨v, h3, h4⟩
      · refine .inl ⟨h3, fun x hx => ?_⟩
        cases hx with
        | head => exact h4
        | tail _ hx => exact h2 x hx
      · exact .inr ⟨v, h3, e, List.mem_cons_self, h4⟩
    · rcases mem_handle h1 with ⟨h7, _⟩ | ⟨u, _, _, _, _, h8⟩
      · exact .inr ⟨v, h7, f, List.mem_cons_of_mem _ h2, h3, h4, h5, h6⟩
      · rw [h8] at h3; cases h3

/-- an event takes nobody off the list -/
theorem handle_co {s : S} {e : Entry} {l : List Waiter} : (handle s e l).map (·.co) = l.map (·.co) := by
  have h : ∀ (fd f : Nat) (b : Bool) (l : List Waiter), (rouse fd f b l).map (·.co) = l.map (·.co) := by
    intro fd f b l
    unfold rouse
    rw [List.map_map]
    congr 1
    funext w
    dsimp only [Function.comp]
    split <;> rfl
  unfold handle
  dsimp only
  repeat' split
  all_goals simp only [h]

theorem handleAll_co {s : S} : ∀ {es : List Entry} {l : List Waiter}, (handleAll s es l).map (·.co) = l.map (·.co)
  | [], _ => rfl
  | _ :: q, _ => by rw [handleAll, handleAll_co (es := q), handle_co]

/-! ### one coroutine waits at most once; the queue that is asked exists -/

structure InvA (s : S) : Prop where
  uniq : (s.wait.map (·.co)).Nodup
  has : s.wait ≠ [] → ∃ l, s.q s.qfd = some l
  pos : s.qfd ≠ 0 → ∃ l, s.q s.qfd = some l
  alive : s.dead = false

theorem nodup_sub {α β : Type} (f : α → β) (p : α → Bool) : ∀ {l : List α}, (l.map f).Nodup → ((l.filter p).map f).Nodup := by
  intro l h
  exact List.Nodup.sublist (List.Sublist.map f List.filter_sublist) h

theorem queue_some {s t : S} {mk : Option Nat} (h : queue s mk = some t) :
    (t = s ∧ s.qfd ≠ 0) ∨ ∃ k, mk = some k ∧ s.qfd = 0 ∧ t = { setq s k (some []) with qfd := k, made := s.now } := by
  unfold queue at h
  split at h
  · rename_i h0
    cases mk with
    | none => cases h
    | some k => simp only [Option.some.injEq] at h; exact .inr ⟨k, rfl, h0, h.symm⟩
  · rename_i h0; simp only [Option.some.injEq] at h; exact .inl ⟨h.symm, h0⟩

/-- the ways a call of `wait_dl` can go -/
theorem wait_cases {s : S} {i fd : Nat} {wr : Bool} {mk : Option Nat} {full : Bool} {P : S → Prop}
    (h1 : queue s mk = none → P { s with log := (i, true) :: s.log })
    (h2 : ∀ t, queue s mk = some t → P { t with log := (i, true) :: t.log })
    (h3 : ∀ t l f, queue s mk = some t → t.q t.qfd = some l → t.file fd = some f → t.can f = true →
      P { setq t t.qfd (some (ctl (ask t fd f wr) l)) with wait := ⟨i, fd, wr, f, .asleep⟩ :: t.wait }) : P (wait s i fd wr mk full) := by
  unfold wait
  split
  · rename_i h; exact h1 h
  · rename_i t ht
    split
    · rename_i l f hl hf
      split
      · exact h2 t ht
      · rename_i hc
        simp only [not_or, Bool.not_eq_false] at hc
        exact h3 t l f ht hl hf hc.1
    · exact h2 t ht

theorem InvA.queue {s t : S} (v : InvA s) {mk : Option Nat} (h : queue s mk = some t) :
    t.wait = s.wait ∧ t.dead = s.dead ∧ t.file = s.file ∧ t.can = s.can ∧ t.rdy = s.rdy ∧ t.log = s.log ∧ ∃ l, t.q t.qfd = some l := by
  rcases queue_some h with ⟨rfl, h0⟩ | ⟨k, _, _, rfl⟩
  · exact ⟨rfl, rfl, rfl, rfl, rfl, rfl, v.pos h0⟩
  · exact ⟨rfl, rfl, rfl, rfl, rfl, rfl, [], by simp [setq]⟩

theorem invA_step {s s' : S} {a : Act} (v : InvA s) (h : Step s a s') : InvA s' := by
  cases h with
  | opens => exact ⟨v.uniq, v.has, v.pos, v.alive⟩
  | dup => exact ⟨v.uniq, v.has, v.pos, v.alive⟩
  | @close fd f last _ _ _ =>
    have h : ∀ k, (∃ l, s.q k = some l) → ∃ l, (close s fd f last).q k = some l := by
      intro k ⟨l, h⟩
      simp only [close]
      split
      · exact ⟨_, by rw [h]; rfl⟩
      · exact ⟨l, h⟩
    exact ⟨v.uniq, fun hw => h _ (v.has hw), fun hw => h _ (v.pos hw), v.alive⟩
  | ready => exact ⟨v.uniq, v.has, v.pos, v.alive⟩
  | tick => exact ⟨v.uniq, v.has, v.pos, v.alive⟩
  | @wait i fd wr mk full _ hn hm =>
    refine wait_cases (P := InvA) (fun _ => ⟨v.uniq, v.has, v.pos, v.alive⟩) (fun t ht => ?_) (fun t l f ht hl hf hc => ?_)
    · obtain ⟨e1, e2, _, _, _, _, e3⟩ := v.queue ht
      exact ⟨by simpa only [e1] using v.uniq, fun _ => e3, fun _ => e3, by simpa only [e2] using v.alive⟩
    · obtain ⟨e1, e2, _, _, _, _, e3⟩ := v.queue ht
      refine ⟨?_, fun _ => ⟨_, by simp [setq]; rfl⟩, fun _ => ⟨_, by simp [setq]; rfl⟩, by simpa only [setq, e2] using v.alive⟩
      simp only [List.map_cons, List.nodup_cons]
      rw [e1]
      refine ⟨fun hi => ?_, v.uniq⟩
      obtain ⟨w, hw, e⟩ := List.mem_map.mp hi
      exact hn w hw e
  | @poll es _ _ hne hp =>
    unfold poll at hp
    obtain ⟨l, hl⟩ := v.has hne
    rw [hl] at hp
    simp only at hp
    split at hp
    · cases hp
      exact ⟨by simpa only [handleAll_co] using v.uniq, fun _ => ⟨_, by simp [setq]; rfl⟩, fun _ => ⟨_, by simp [setq]; rfl⟩, v.alive⟩
    · cases hp
  | @other i _ =>
    refine ⟨?_, fun hw => v.has (fun e => hw (by rw [e]; rfl)), v.pos, v.alive⟩
    simp only [List.map_map]
    have : ((fun x => x.co) ∘ fun w : Waiter => if w.co = i ∧ w.wake = Wake.asleep then { w with wake := Wake.other } else w) = (fun x => x.co) := by
      funext w; dsimp only [Function.comp]; split <;> rfl
    rw [this]; exact v.uniq
  | @run i _ _ => exact ⟨nodup_sub _ _ v.uniq, fun hw => v.has (fun e => hw (by rw [e]; rfl)), v.pos, v.alive⟩
  | rc =>
    unfold rc
    split
    · rename_i hc
      refine ⟨v.uniq, fun hw => absurd (List.eq_nil_of_length_eq_zero hc.1) hw, fun h => absurd rfl h, v.alive⟩
    · exact ⟨v.uniq, v.has, v.pos, v.alive⟩

theorem reach_invA {ok : S → Act → Prop} {s : S} (r : Reach ok s) : InvA s := by
  induction r with
  | init => exact ⟨List.nodup_nil, fun h => absurd rfl h, fun h => absurd rfl h, rfl⟩
  | step _ _ hs ih => exact invA_step ih hs

theorem co_inj {s : S} (v : InvA s) {w w' : Waiter} (h : w ∈ s.wait) (h' : w' ∈ s.wait) (e : w.co = w'.co) : w = w' := by
  have := v.uniq
  revert h h' this
  generalize s.wait = l
  intro h h' hn
  induction l with
  | nil => cases h
  | cons a q ih =>
    simp only [List.map_cons, List.nodup_cons, List.mem_map, not_exists, not_and] at hn
    cases h with
    | head => cases h' with
      | head => rfl
      | tail _ h' => exact absurd e.symm (hn.1 _ h')
    | tail _ h => cases h' with
      | head => exact absurd e (hn.1 _ h)
      | tail _ h' => exact ih h h' hn.2

/-! ### whoever sleeps has been asked for -/

theorem mem_ctl {e x : Entry} {l : List Entry} (h : x ∈ l) : (x ∈ ctl e l) ∨ (x.fd = e.fd ∧ x.file = e.file) := by
  unfold ctl
  split
  · by_cases hk : x.is e.fd e.file = true
    · simp only [Entry.is, Bool.and_eq_true, beq_iff_eq] at hk; exact .inr hk
    · exact .inl (List.mem_map.mpr ⟨x, h, by rw [if_neg hk]⟩)
  · exact .inl (List.mem_cons_of_mem _ h)

theorem ctl_mem {e : Entry} {l : List Entry} : e ∈ ctl e l := by
  unfold ctl
  split
  · rename_i h
    obtain ⟨x, hx, hk⟩ := List.any_eq_true.mp h
    exact List.mem_map.mpr ⟨x, hx, by rw [if_pos hk]⟩
  · exact List.mem_cons_self

theorem of_ctl {e x : Entry} {l : List Entry} (h : x ∈ ctl e l) : x = e ∨ x ∈ l := by
  unfold ctl at h
  split at h
  · obtain ⟨y, hy, rfl⟩ := List.mem_map.mp h
    split
    · exact .inl rfl
    · exact .inr hy
  · rcases List.mem_cons.mp h with h | h
    · exact .inl h
    · exact .inr h

theorem ask_key {s : S} {fd f : Nat} {wr : Bool} : (ask s fd f wr).fd = fd ∧ (ask s fd f wr).file = f := by
  unfold ask; split <;> exact ⟨rfl, rfl⟩

theorem ask_self {s : S} {fd f : Nat} {wr : Bool} : (if wr = true then (ask s fd f wr).wr else (ask s fd f wr).rd) = true := by
  unfold ask; cases wr <;> rfl

theorem ask_other {s : S} {fd f : Nat} {wr : Bool} {w : Waiter} (h : w ∈ s.wait) (hf : w.fd = fd) : (if w.wr = true then (ask s fd f wr).wr else (ask s fd f wr).rd) = true := by
  have hx : ∀ b, w.wr = b → evexists s fd b = true := by
    intro b hb
    unfold evexists
    exact List.any_eq_true.mpr ⟨w, h, by simp [hf, hb]⟩
  unfold ask
  cases hw : w.wr <;> cases wr <;> simp [hx _ hw]

structure InvF (s : S) : Prop where
  nz : s.wait ≠ [] → s.qfd ≠ 0
  asked : ∀ w, Sleeps s w → Asked s w

theorem invF_step {s s' : S} {a : Act} (va : InvA s) (v : InvF s) (hok : Fit s a) (h : Step s a s') : InvF s' := by
  cases h with
  | opens => exact ⟨v.nz, v.asked⟩
  | dup => exact ⟨v.nz, v.asked⟩
  | @close fd f last _ hf _ =>
    refine ⟨v.nz, fun w hw => ?_⟩
    obtain ⟨l, hl, e, he, h1, h2, h3⟩ := v.asked w hw
    unfold Asked
    simp only [close]
    cases last with
    | false => simp; exact ⟨l, hl, e, he, h1, h2, by simpa using h3⟩
    | true =>
      have hne := hok rfl w hw
      rw [hf] at hne
      refine ⟨l.filter (fun e => e.file != f), by simp [hl], e, List.mem_filter.mpr ⟨he, ?_⟩, h1, h2, h3⟩
      simp only [bne_iff_ne, ne_eq, h2]
      intro hx; exact hne (by rw [hx])
  | ready => exact ⟨v.nz, v.asked⟩
  | tick => exact ⟨v.nz, v.asked⟩
  | @wait i fd wr mk full _ hn hm =>
    refine wait_cases (P := InvF) (fun _ => ⟨v.nz, v.asked⟩) (fun t ht => ?_) (fun t l f ht hl hf hc => ?_)
    · rcases queue_some ht with ⟨rfl, h0⟩ | ⟨k, hk, h0, rfl⟩
      · exact ⟨v.nz, v.asked⟩
      · refine ⟨fun hw => absurd h0 (v.nz hw), fun w hw => ?_⟩
        exact absurd h0 (v.nz (List.ne_nil_of_mem hw.1))
    · have hq : t.qfd ≠ 0 := by
        rcases queue_some ht with ⟨rfl, h0⟩ | ⟨k, hk, h0, rfl⟩
        · exact h0
        · simp only [Fit] at hok; intro hz; exact hok (by rw [hk]; exact congrArg some hz)
      refine ⟨fun _ => hq, fun w hw => ?_⟩
      have ask_lst : ∀ e ∈ ctl (ask t fd f wr) l, e.fd = w.fd → e.file = w.file → (if w.wr = true then e.wr else e.rd) = true →
          Asked { setq t t.qfd (some (ctl (ask t fd f wr) l)) with wait := ⟨i, fd, wr, f, .asleep⟩ :: t.wait } w :=
        fun e he h1 h2 h3 => ⟨_, by simp [setq], e, he, h1, h2, h3⟩
      obtain ⟨hw1, hw2⟩ := hw
      rcases List.mem_cons.mp hw1 with rfl | hw1
      · exact ask_lst _ ctl_mem ask_key.1 ask_key.2 ask_self
      · rcases queue_some ht with ⟨rfl, h0⟩ | ⟨k, hk, h0, rfl⟩
        · obtain ⟨l', hl', e, he, h1, h2, h3⟩ := v.asked w ⟨hw1, hw2⟩
          rw [hl] at hl'; cases hl'
          rcases mem_ctl (e := ask t fd f wr) he with hm | ⟨h4, h5⟩
          · exact ask_lst e hm h1 h2 h3
          · rw [ask_key.1] at h4; rw [ask_key.2] at h5
            exact ask_lst _ ctl_mem (ask_key.1.trans (h4.symm.trans h1)) (ask_key.2.trans (h5.symm.trans h2)) (ask_other hw1 (h1.symm.trans h4))
        · exact absurd h0 (v.nz (List.ne_nil_of_mem hw1))
  | @poll es _ _ hne hp =>
    unfold poll at hp
    obtain ⟨l, hl⟩ := va.has hne
    rw [hl] at hp
    simp only at hp
    split at hp
    · cases hp
      refine ⟨fun _ => v.nz hne, fun w hw => ?_⟩
      rcases mem_handleAll hw.1 with ⟨h1, h2⟩ | ⟨u, _, e, _, _, _, _, h6⟩
      · obtain ⟨l', hl', e, he, h3, h4, h5⟩ := v.asked w ⟨h1, hw.2⟩
        rw [hl] at hl'; cases hl'
        have hn : e ∉ es := fun hm => h2 e hm ⟨hw.2, h3.symm, hok e hm w ⟨h1, hw.2⟩ h3 h4⟩
        exact ⟨disarm es l, by simp [setq], e, List.mem_map.mpr ⟨e, he, by rw [if_neg hn]⟩, h3, h4, h5⟩
      · have := hw.2; rw [h6] at this; cases this
    · cases hp
  | @other i _ =>
    refine ⟨fun hw => v.nz (fun e => hw (by rw [e]; rfl)), fun w hw => ?_⟩
    obtain ⟨u, hu, rfl⟩ := List.mem_map.mp hw.1
    have hh := hw.2
    split at hh
    · cases hh
    · rename_i hc
      rw [if_neg hc]
      exact v.asked u ⟨hu, hh⟩
  | @run i _ _ =>
    refine ⟨fun hw => v.nz (fun e => hw (by rw [e]; rfl)), fun w hw => ?_⟩
    exact v.asked w ⟨(List.mem_filter.mp hw.1).1, hw.2⟩
  | rc =>
    unfold rc
    split
    · rename_i hc
      have h0 := List.eq_nil_of_length_eq_zero hc.1
      exact ⟨fun hw => absurd h0 hw, fun w hw => by have := hw.1; simp only at this; rw [show (setq s s.qfd none).wait = s.wait from rfl, h0] at this; cases this⟩
    · exact ⟨v.nz, v.asked⟩

theorem reach_invF {s : S} (r : Reach Fit s) : InvF s := by
  induction r with
  | init => exact ⟨fun h => absurd rfl h, fun w hw => by cases hw.1⟩
  | step r ho hs ih => exact invF_step (reach_invA r) ih ho hs

/-! ### one direction at a time -/

/-- what is registered for somebody asleep is registered for their direction only -/
def InvO (s : S) : Prop := ∀ w, Sleeps s w → ∀ l, s.q s.qfd = some l → ∀ e ∈ l, e.fd = w.fd → e.file = w.file → (if w.wr = true then e.rd else e.wr) = false

theorem dir_of {s : S} {e : Entry} {b : Bool} (h : (if b = true then e.rd else e.wr) = false) (hr : (e.report s).inn = true ∨ (e.report s).out = true) : (e.report s).dir b = true := by
  unfold Ready.dir
  unfold Entry.report at *
  simp only [Bool.and_eq_true] at hr
  cases b with
  | false => rcases hr with hr | hr
             · simp [hr]
             · simp at h; rw [h] at hr; cases hr.1
  | true => rcases hr with hr | hr
            · simp at h; rw [h] at hr; cases hr.1
            · simp [hr]

theorem of_ctl_key {e x : Entry} {l : List Entry} (h : x ∈ ctl e l) (hk : x.fd = e.fd ∧ x.file = e.file) : x = e := by
  unfold ctl at h
  split at h
  · obtain ⟨y, hy, rfl⟩ := List.mem_map.mp h
    split
    · rfl
    · rename_i hn
      rw [if_neg hn] at hk
      exact absurd (by simp [Entry.is, hk]) hn
  · rename_i hn
    rcases List.mem_cons.mp h with h | h
    · exact h
    · exact absurd (List.any_eq_true.mpr ⟨x, h, by simp [Entry.is, hk]⟩) hn

theorem ask_one {s : S} {fd f : Nat} {wr : Bool} (h : ∀ w ∈ s.wait, w.fd = fd → w.wr = wr) : (if wr = true then (ask s fd f wr).rd else (ask s fd f wr).wr) = false := by
  have hx : evexists s fd (!wr) = false := by
    unfold evexists
    rw [List.any_eq_false]
    intro w hw
    simp only [Bool.and_eq_true, beq_iff_eq, not_and]
    intro h1; rw [h w hw h1]; cases wr <;> decide
  unfold ask
  cases wr <;> simpa using hx

theorem oneWay_fit {s : S} {a : Act} (va : InvA s) (v : InvO s) (h : OneWay s a) (hs : ∃ t, Step s a t) : Fit s a := by
  cases a with
  | wait => exact h.1
  | close => exact h
  | poll es =>
    intro e he w hw h1 h2
    obtain ⟨t, hs⟩ := hs
    cases hs with
    | poll _ hne hp =>
      unfold poll at hp
      obtain ⟨l, hl⟩ := va.has hne
      rw [hl] at hp
      simp only at hp
      split at hp
      · rename_i hr
        exact dir_of (v w hw l hl e (hr.2.1 e he).1 h1 h2) (h e he)
      · cases hp
  | _ => trivial

theorem invO_step {s s' : S} {a : Act} (va : InvA s) (vf : InvF s) (v : InvO s) (hok : OneWay s a) (h : Step s a s') : InvO s' := by
  cases h with
  | opens => exact v
  | dup => exact v
  | @close fd f last _ hf _ =>
    intro w hw l hl e he
    simp only [close] at hl
    split at hl
    · obtain ⟨m, hm, rfl⟩ := Option.map_eq_some_iff.mp hl
      exact v w hw m hm e (List.mem_filter.mp he).1
    · exact v w hw l hl e he
  | ready => exact v
  | tick => exact v
  | @wait i fd wr mk full _ hn hm =>
    refine wait_cases (P := InvO) (fun _ => v) (fun t ht => ?_) (fun t l f ht hl hf hc => ?_)
    · rcases queue_some ht with ⟨rfl, h0⟩ | ⟨k, hk, h0, rfl⟩
      · exact v
      · intro w hw; exact absurd h0 (vf.nz (List.ne_nil_of_mem hw.1))
    · obtain ⟨e1, _⟩ := va.queue ht
      intro w hw m hm e he h1 h2
      have hm' : m = ctl (ask t fd f wr) l := by
        simp [setq] at hm; exact hm.symm
      subst hm'
      have h1w : ∀ u ∈ t.wait, u.fd = fd → u.wr = wr := by rw [e1]; exact hok.2
      have hkey : e.fd = fd → e.file = f → w.wr = wr → (if w.wr = true then e.rd else e.wr) = false := by
        intro a b c
        have he' := of_ctl_key he ⟨a.trans ask_key.1.symm, b.trans ask_key.2.symm⟩
        rw [he', c]
        exact ask_one h1w
      obtain ⟨hw1, hw2⟩ := hw
      rcases List.mem_cons.mp hw1 with rfl | hw1
      · exact hkey h1 h2 rfl
      · by_cases hk : e.fd = fd ∧ e.file = f
        · exact hkey hk.1 hk.2 (h1w w hw1 (h1.symm.trans hk.1))
        · rcases of_ctl he with rfl | he
          · exact absurd ask_key hk
          · rcases queue_some ht with ⟨rfl, h0⟩ | ⟨k, hk', h0, rfl⟩
            · exact v w ⟨hw1, hw2⟩ l hl e he h1 h2
            · exact absurd h0 (vf.nz (List.ne_nil_of_mem hw1))
  | @poll es _ _ hne hp =>
    unfold poll at hp
    obtain ⟨l, hl⟩ := va.has hne
    rw [hl] at hp
    simp only at hp
    split at hp
    · cases hp
      intro w hw m hm e he h1 h2
      have hm' : m = disarm es l := by simp [setq] at hm; exact hm.symm
      subst hm'
      obtain ⟨x, hx, rfl⟩ := List.mem_map.mp he
      by_cases hxe : x ∈ es
      · rw [if_pos hxe]; split <;> rfl
      · rw [if_neg hxe] at h1 h2 ⊢
        rcases mem_handleAll hw.1 with ⟨h3, _⟩ | ⟨u, _, _, _, _, _, _, h6⟩
        · exact v w ⟨h3, hw.2⟩ l hl x hx h1 h2
        · have := hw.2; rw [h6] at this; cases this
    · cases hp
  | @other i _ =>
    intro w hw
    obtain ⟨u, hu, rfl⟩ := List.mem_map.mp hw.1
    have hh := hw.2
    split at hh
    · cases hh
    · rename_i hc
      rw [if_neg hc]
      exact v u ⟨hu, hh⟩
  | @run i _ _ => intro w hw; exact v w ⟨(List.mem_filter.mp hw.1).1, hw.2⟩
  | rc =>
    unfold rc
    split
    · rename_i hc
      intro w hw
      have := hw.1
      rw [show (({ setq s s.qfd none with qfd := 0 } : S)).wait = s.wait from rfl, List.eq_nil_of_length_eq_zero hc.1] at this; cases this
    · exact v

theorem reach_oneWay {s : S} (r : Reach OneWay s) : Reach Fit s ∧ InvO s := by
  induction r with
  | init => exact ⟨.init, fun w hw => by cases hw.1⟩
  | step r ho hs ih =>
    have va := reach_invA r
    exact ⟨.step ih.1 (oneWay_fit va ih.2 ho ⟨_, hs⟩) hs, invO_step va (reach_invF ih.1) ih.2 ho hs⟩

/-! ### without duplicates a registration is of the file its number stands for -/

structure InvD (s : S) : Prop where
  inj : ∀ k k' f, s.file k = some f → s.file k' = some f → k = k'
  ent : ∀ k l, s.q k = some l → ∀ e ∈ l, s.file e.fd = some e.file

theorem setq_mem {s : S} {j k : Nat} {L l : List Entry} (h : (setq s j (some L)).q k = some l) : (k = j ∧ l = L) ∨ (k ≠ j ∧ s.q k = some l) := by
  simp only [setq] at h
  split at h
  · rename_i hk; simp only [Option.some.injEq] at h; exact .inl ⟨hk, h.symm⟩
  · rename_i hk; exact .inr ⟨hk, h⟩

theorem invD_queue {s t : S} (v : InvD s) {mk : Option Nat} (h : queue s mk = some t) : InvD t := by
  rcases queue_some h with ⟨rfl, h0⟩ | ⟨k, hk, h0, rfl⟩
  · exact v
  · refine ⟨v.inj, fun j l hl => ?_⟩
    rcases setq_mem (s := s) hl with ⟨_, rfl⟩ | ⟨_, h1⟩
    · intro e he; cases he
    · exact v.ent j l h1

theorem invD_step {s s' : S} {a : Act} (v : InvD s) (hok : NoDup s a) (h : Step s a s') : InvD s' := by
  cases h with
  | @opens fd f b _ hfr hf _ _ =>
    have hn : s.file fd = none := by simp only [free, Bool.and_eq_true, Option.isNone_iff_eq_none] at hfr; exact hfr.1
    refine ⟨fun k k' g h1 h2 => ?_, fun k l hl e he => ?_⟩
    · simp only at h1 h2
      split at h1 <;> split at h2
      · rename_i a b; rw [a, b]
      · cases h1; exact absurd h2 (hf _)
      · cases h2; exact absurd h1 (hf _)
      · exact v.inj k k' g h1 h2
    · have := v.ent k l hl e he
      simp only
      split
      · rename_i hx; rw [hx, hn] at this; cases this
      · exact this
  | dup => exact absurd hok id
  | @close fd f last _ hf hlast =>
    refine ⟨fun k k' g h1 h2 => ?_, fun k l hl e he => ?_⟩
    · simp only [close] at h1 h2
      split at h1
      · cases h1
      · split at h2
        · cases h2
        · exact v.inj k k' g h1 h2
    · have ht : last = true := hlast.mpr (fun k hk hx => hk (v.inj k fd f hx hf))
      subst ht
      simp only [close, if_true, Option.map_eq_some_iff] at hl
      obtain ⟨m, hm, rfl⟩ := hl
      obtain ⟨he1, he2⟩ := List.mem_filter.mp he
      have h1 := v.ent k m hm e he1
      simp only [bne_iff_ne, ne_eq] at he2
      simp only [close]
      split
      · rename_i hx; rw [hx, hf] at h1; cases h1; exact absurd rfl he2
      · exact h1
  | ready => exact ⟨v.inj, v.ent⟩
  | tick => exact ⟨v.inj, v.ent⟩
  | @wait i fd wr mk full _ hn hm =>
    refine wait_cases (P := InvD) (fun _ => ⟨v.inj, v.ent⟩) (fun t ht => ⟨(invD_queue v ht).inj, (invD_queue v ht).ent⟩) (fun t l f ht hl hf hc => ?_)
    have vt := invD_queue v ht
    refine ⟨vt.inj, fun k m hk e he => ?_⟩
    rcases setq_mem (s := t) hk with ⟨_, rfl⟩ | ⟨_, h1⟩
    · rcases of_ctl he with rfl | he
      · rw [ask_key.1, ask_key.2]; exact hf
      · exact vt.ent _ _ hl e he
    · exact vt.ent k m h1 e he
  | @poll es _ _ hne hp =>
    unfold poll at hp
    split at hp
    · cases hp; exact ⟨v.inj, v.ent⟩
    · rename_i l hl
      split at hp
      · cases hp
        refine ⟨v.inj, fun k m hk e he => ?_⟩
        rcases setq_mem (s := s) hk with ⟨_, rfl⟩ | ⟨_, h1⟩
        · obtain ⟨x, hx, rfl⟩ := List.mem_map.mp he
          have := v.ent _ _ hl x hx
          split <;> exact this
        · exact v.ent k m h1 e he
      · cases hp
  | other => exact ⟨v.inj, v.ent⟩
  | run => exact ⟨v.inj, v.ent⟩
  | rc =>
    unfold rc
    split
    · refine ⟨v.inj, fun k m hk e he => ?_⟩
      simp only [setq] at hk
      split at hk
      · cases hk
      · exact v.ent k m hk e he
    · exact ⟨v.inj, v.ent⟩

theorem reach_invD {s : S} (r : Reach NoDup s) : InvD s := by
  induction r with
  | init => exact ⟨fun _ _ _ h _ => (nomatch h), fun _ _ h => (nomatch h)⟩
  | step r ho hs ih => exact invD_step ih ho hs

/-! ### … and so is a waiter, if nobody closes what is waited for -/

theorem reach_tidy {s : S} (r : Reach Tidy s) : ∀ w ∈ s.wait, s.file w.fd = some w.file := by
  induction r with
  | init => intro w hw; cases hw
  | @step s s' a r ho hs ih =>
    cases hs with
    | @opens fd f b _ hfr _ _ _ =>
      intro w hw
      have h1 := ih w hw
      have hn : s.file fd = none := by simp only [free, Bool.and_eq_true, Option.isNone_iff_eq_none] at hfr; exact hfr.1
      simp only
      split
      · rename_i hx; rw [hx, hn] at h1; cases h1
      · exact h1
    | dup => exact absurd ho id
    | @close fd f last _ hf _ =>
      intro w hw
      simp only [close]
      rw [if_neg (ho w hw)]
      exact ih w hw
    | ready => exact ih
    | tick => exact ih
    | @wait i fd wr mk full _ hn hm =>
      have va := reach_invA r
      refine wait_cases (P := fun t => ∀ w ∈ t.wait, t.file w.fd = some w.file) (fun _ => ih) (fun t ht => ?_) (fun t l f ht hl hf hc => ?_)
      · obtain ⟨e1, _, e2, _⟩ := va.queue ht
        simpa only [e1, e2] using ih
      · obtain ⟨e1, _, e2, _⟩ := va.queue ht
        intro w hw
        rcases List.mem_cons.mp hw with rfl | hw
        · exact hf
        · rw [e1] at hw; rw [show (setq t t.qfd (some (ctl (ask t fd f wr) l))).file = t.file from rfl, e2]; exact ih w hw
    | @poll es _ _ hne hp =>
      unfold poll at hp
      split at hp
      · cases hp; exact ih
      · split at hp
        · cases hp
          intro w hw
          rcases mem_handleAll hw with ⟨h1, _⟩ | ⟨u, h1, _, _, _, _, _, rfl⟩
          · exact ih w h1
          · exact ih u h1
        · cases hp
    | @other i _ =>
      intro w hw
      obtain ⟨u, hu, rfl⟩ := List.mem_map.mp hw
      split
      · exact ih u hu
      · exact ih u hu
    | run => intro w hw; exact ih w (List.mem_filter.mp hw).1
    | rc => intro w hw; unfold rc at *; split <;> (split at hw <;> exact ih w hw)

/-! ### one queue -/

theorem reach_one {s : S} (r : Reach NotZero s) : ∀ k l, s.q k = some l → k = s.qfd ∧ k ≠ 0 := by
  induction r with
  | init => intro k l h; cases h
  | @step s s' a r ho hs ih =>
    have hq : ∀ {mk t}, queue s mk = some t → mk ≠ some 0 → t.qfd ≠ 0 ∧ ∀ k l, t.q k = some l → k = t.qfd ∧ k ≠ 0 := by
      intro mk t ht hm
      rcases queue_some ht with ⟨rfl, h0⟩ | ⟨j, hj, h0, rfl⟩
      · exact ⟨h0, ih⟩
      · have hj0 : j ≠ 0 := fun hx => hm (by rw [hj, hx])
        refine ⟨hj0, fun k l h => ?_⟩
        rcases setq_mem (s := s) h with ⟨rfl, _⟩ | ⟨_, h1⟩
        · exact ⟨rfl, hj0⟩
        · have := ih k l h1; exact absurd (this.1.trans h0) this.2
    cases hs with
    | opens => exact ih
    | dup => exact ih
    | @close fd f last _ hf _ =>
      intro k l h
      simp only [close] at h
      split at h
      · obtain ⟨m, hm, _⟩ := Option.map_eq_some_iff.mp h; exact ih k m hm
      · exact ih k l h
    | ready => exact ih
    | tick => exact ih
    | @wait i fd wr mk full _ hn hm =>
      refine wait_cases (P := fun t => ∀ k l, t.q k = some l → k = t.qfd ∧ k ≠ 0) (fun _ => ih) (fun t ht => (hq ht ho).2) (fun t l f ht hl hf hc => ?_)
      intro k m hk
      rcases setq_mem (s := t) hk with ⟨rfl, _⟩ | ⟨_, h1⟩
      · exact ⟨rfl, (hq ht ho).1⟩
      · exact (hq ht ho).2 k m h1
    | @poll es _ _ hne hp =>
      unfold poll at hp
      split at hp
      · cases hp; exact ih
      · rename_i l hl
        split at hp
        · cases hp
          intro k m hk
          rcases setq_mem (s := s) hk with ⟨rfl, _⟩ | ⟨_, h1⟩
          · exact ih _ l hl
          · exact ih k m h1
        · cases hp
    | other => exact ih
    | run => exact ih
    | rc =>
      unfold rc
      split
      · intro k l h
        simp only [setq] at h
        split at h
        · cases h
        · rename_i hne; exact absurd (ih k l h).1 hne
      · exact ih

/-! ### after the last descriptor was closed -/

structure Gone (i fd : Nat) (w : Waiter) (s : S) : Prop where
  sleeps : Sleeps s w
  ent : ∀ k l, s.q k = some l → ∀ e ∈ l, e.fd ≠ fd

theorem gone_step {i fd : Nat} {w : Waiter} {s s' : S} {a : Act} (hi : w.co = i) (hf : w.fd = fd) (v : Gone i fd w s) (ho : Apart i fd s a) (va : InvA s) (h : Step s a s') : Gone i fd w s' := by
  cases h with
  | opens => exact ⟨v.sleeps, v.ent⟩
  | dup => exact ⟨v.sleeps, v.ent⟩
  | @close fd' f last _ _ _ =>
    refine ⟨v.sleeps, fun k l hl e he => ?_⟩
    simp only [close] at hl
    split at hl
    · obtain ⟨m, hm, rfl⟩ := Option.map_eq_some_iff.mp hl
      exact v.ent k m hm e (List.mem_filter.mp he).1
    · exact v.ent k l hl e he
  | ready => exact ⟨v.sleeps, v.ent⟩
  | tick => exact ⟨v.sleeps, v.ent⟩
  | @wait j fd' wr mk full _ hn hm =>
    have hq : ∀ {t}, queue s mk = some t → ∀ k l, t.q k = some l → ∀ e ∈ l, e.fd ≠ fd := by
      intro t ht
      rcases queue_some ht with ⟨rfl, h0⟩ | ⟨j, hj, h0, rfl⟩
      · exact v.ent
      · intro k l h
        rcases setq_mem (s := s) h with ⟨rfl, rfl⟩ | ⟨_, h1⟩
        · intro e he; cases he
        · exact v.ent k l h1
    refine wait_cases (P := fun t => Gone i fd w t) (fun _ => ⟨v.sleeps, v.ent⟩) (fun t ht => ?_) (fun t l f ht hl hf hc => ?_)
    · obtain ⟨e1, _⟩ := va.queue ht
      exact ⟨⟨by simpa only [e1] using v.sleeps.1, v.sleeps.2⟩, fun k l hl => hq ht k l hl⟩
    · obtain ⟨e1, _⟩ := va.queue ht
      refine ⟨⟨List.mem_cons_of_mem _ (by rw [e1]; exact v.sleeps.1), v.sleeps.2⟩, fun k m hk e he => ?_⟩
      rcases setq_mem (s := t) hk with ⟨rfl, rfl⟩ | ⟨_, h1⟩
      · rcases of_ctl he with rfl | he
        · rw [ask_key.1]; exact ho
        · exact hq ht _ _ hl e he
      · exact hq ht k m h1 e he
  | @poll es _ _ hne hp =>
    unfold poll at hp
    obtain ⟨l, hl⟩ := va.has hne
    rw [hl] at hp
    simp only at hp
    split at hp
    · rename_i hr
      cases hp
      refine ⟨⟨?_, v.sleeps.2⟩, fun k m hk e he => ?_⟩
      · have hm : w.co ∈ (handleAll s es s.wait).map (·.co) := by rw [handleAll_co]; exact List.mem_map.mpr ⟨w, v.sleeps.1, rfl⟩
        obtain ⟨u, hu, hc⟩ := List.mem_map.mp hm
        rcases mem_handleAll hu with ⟨h1, _⟩ | ⟨x, h1, e, he, _, h3, _, rfl⟩
        · rw [← co_inj va h1 v.sleeps.1 hc]; exact hu
        · have := co_inj va h1 v.sleeps.1 hc
          subst this
          exact absurd (h3.symm.trans hf) (v.ent _ l hl e (hr.2.1 e he).1)
      · rcases setq_mem (s := s) hk with ⟨_, rfl⟩ | ⟨_, h1⟩
        · obtain ⟨x, hx, rfl⟩ := List.mem_map.mp he
          have := v.ent _ _ hl x hx
          split <;> exact this
        · exact v.ent k m h1 e he
    · cases hp
  | @other j _ =>
    refine ⟨⟨List.mem_map.mpr ⟨w, v.sleeps.1, ?_⟩, v.sleeps.2⟩, v.ent⟩
    rw [if_neg]
    intro hc
    exact ho (hc.1.symm.trans hi)
  | @run j _ hx =>
    refine ⟨⟨List.mem_filter.mpr ⟨v.sleeps.1, ?_⟩, v.sleeps.2⟩, v.ent⟩
    obtain ⟨u, hu, hc, hw⟩ := hx
    simp only [bne_iff_ne, ne_eq]
    intro he
    have := co_inj va v.sleeps.1 hu (he.trans hc.symm)
    subst this
    exact hw v.sleeps.2
  | rc =>
    unfold rc
    split
    · rename_i hc
      have := v.sleeps.1
      rw [List.eq_nil_of_length_eq_zero hc.1] at this; cases this
    · exact ⟨v.sleeps, v.ent⟩

end Neco.Evq
