import Verif.Proof.RtLog
import Verif.Spec.Rt
/-!
# What a return value is evidence of
-/
namespace Neco.Rt
open Neco.Err

/-- the events about `j` since its last call -/
def sn (j : Nat) (s : S) : List Ev := since j (lg j s)

/-- what the result `v` of call `c` by `j` says about the events `S` since the call -/
def CallOk (j : Nat) (c : Call) (g : Option Nat) (v : Int) (d : Msg) (S : List Ev) (clk : Int) : Prop :=
  match c with
  | .sleep dl => v = OK → dl < clk
  | .join id _ => v = OK → .wake (.joinQ id) j ∈ S ∨ .nowait (.joinQ id) j ∈ S
  | .suspend _ => v = OK → ∃ k, .resume k j ∈ S
  | .getid => v = j
  | .send c m _ => v = OK → S.filter isPut = [.put c j m]
  | .genYield m _ => v = OK → ∃ c, g = some c ∧ S.filter isPut = [.put c j m]
  | .recv c _ => (v = OK → S.filter isDeliv = [.take c j d] ∨ S.filter isDeliv = [.bcastTo c j d]) ∧ (v = CLOSED → S.filter isDeliv = [])
  | .tryrecv c => (v = OK → S.filter isDeliv = [.take c j d]) ∧ (v ≠ OK → S.filter isDeliv = [])
  | .select cs _ => 0 ≤ v → ∃ c, cs[v.toNat]? = some c ∧ (S.filter isDeliv = [] ∨ ∃ m, S.filter isDeliv = [.take c j m] ∨ S.filter isDeliv = [.bcastTo c j m])
  | .tryselect cs => 0 ≤ v → ∃ c, cs[v.toNat]? = some c ∧ (S.filter isDeliv = [] ∨ ∃ m, S.filter isDeliv = [.take c j m])
  | .lock m _ => v = OK → .grant m j false ∈ S
  | .rdlock m _ => v = OK → .grant m j true ∈ S
  | .trylock m => v = OK → .grant m j false ∈ S
  | .tryrdlock m => v = OK → .grant m j true ∈ S
  | .wgWait w _ => v = OK → .wake (.wgQ w) j ∈ S ∨ .nowait (.wgQ w) j ∈ S
  | .cvWait q m _ => ((v = CANCELED ∧ .release m j ∉ S) ∨ After (.release m j) (.grant m j false) S) ∧
      (v = OK → After (.release m j) (.wake (.cvQ q) j) S)
  | .cancel id _ => v = OK → .cancel j id ∈ S
  | .sigWait _ => 0 ≤ v → .sigTo v.toNat j ∈ S
  | .wait fd w _ => v = OK → .ready fd w j ∈ S
  | .work => v = OK → .wdone j ∈ S ∨ ∃ k, .cancel k j ∈ S
  | _ => True

def RetOk (j : Nat) (s : S) (v : Int) : Prop :=
  (v = CANCELED → ∃ k, .cancel k j ∈ lg j s) ∧
  (v = TIMEDOUT → ∃ dl, callDl (s.co j).call = some dl ∧ dl < s.clock) ∧
  CallOk j (s.co j).call (s.co j).gen v (s.co j).rdat (sn j s) s.clock

/-- the value a pc is going to return -/
def retPc : Pc → Option Int
  | .ret v => some v
  | .yck _ (.ret v) => some v
  | .yld _ (.ret v) => some v
  | .go (.ret v) => some v
  | _ => none

def condPc : Pc → Bool
  | .yck _ .condEnq => true
  | .yld _ .condEnq => true
  | .go .condEnq => true
  | _ => false

/-- `j` is linked into a queue of something it waits for -/
def inQ (j : Nat) (s : S) : Prop := ∃ L, L ≠ .resumers ∧ L ≠ .iolist ∧ .co j ∈ s.lists L

/-- what `j`, blocked at `b`, waits for has happened -/
def reason (j : Nat) (s : S) : Blk → Prop
  | .sleep => False
  | .susp => ∃ k, .resume k j ∈ sn j s
  | .wait => ∃ fd w dl, (s.co j).call = .wait fd w dl ∧ .ready fd w j ∈ sn j s
  | .sig => ∃ n, .sigTo n j ∈ sn j s
  | .sel => (s.co j).retIdx ≠ -1
  | _ => ¬ inQ j s

def SavOk (j : Nat) (s : S) (q m : Nat) (dl : Int) : Prop :=
  ((s.co j).sav = CANCELED → ∃ k, .cancel k j ∈ lg j s) ∧
  ((s.co j).sav = TIMEDOUT → dl < s.clock) ∧
  ((s.co j).sav = OK → After (.release m j) (.wake (.cvQ q) j) (sn j s))

/-- evidence by the place where `j` is blocked -/
def Own (j : Nat) (s : S) (b : Blk) : Prop :=
  match b, (s.co j).call with
  | .send, .send c m _ => (sn j s).filter isPut = [.put c j m]
  | .send, .genYield m _ => ∃ c, (s.co j).gen = some c ∧ (sn j s).filter isPut = [.put c j m]
  | .recv, .recv c _ => (inQ j s ∧ (sn j s).filter isDeliv = [] ∧ (s.co j).cclosed = false) ∨
      (¬ inQ j s ∧ (s.co j).cclosed = true ∧ (sn j s).filter isDeliv = []) ∨
      (¬ inQ j s ∧ (s.co j).cclosed = false ∧ ((sn j s).filter isDeliv = [.take c j (s.co j).rdat] ∨ (sn j s).filter isDeliv = [.bcastTo c j (s.co j).rdat]))
  | .sel, .select cs _ => ((s.co j).retIdx = -1 ∧ (sn j s).filter isDeliv = []) ∨
      (∃ k c, (s.co j).retIdx = (k : Nat) ∧ cs[k]? = some c ∧ ((sn j s).filter isDeliv = [] ∨ ∃ m, (sn j s).filter isDeliv = [.take c j m] ∨ (sn j s).filter isDeliv = [.bcastTo c j m]))
  | .lock rd, .lock m _ => inQ j s ∨ .grant m j rd ∈ sn j s
  | .lock rd, .rdlock m _ => inQ j s ∨ .grant m j rd ∈ sn j s
  | .relock, .cvWait q m dl => .release m j ∈ sn j s ∧ SavOk j s q m dl ∧ (inQ j s ∨ After (.release m j) (.grant m j false) (sn j s))
  | .wg, .wgWait w _ => inQ j s ∨ .wake (.wgQ w) j ∈ sn j s
  | .cond, .cvWait q m _ => .release m j ∈ sn j s ∧ (inQ j s ∨ After (.release m j) (.wake (.cvQ q) j) (sn j s))
  | .join, .join id _ => inQ j s ∨ .wake (.joinQ id) j ∈ sn j s
  | .sig, .sigWait _ => inQ j s ∧ ((∃ n, .sigTo n j ∈ sn j s) → .sigTo (s.co j).sigmask j ∈ sn j s)
  | _, _ => True

structure BlkOk (j : Nat) (s : S) (b : Blk) : Prop where
  /-- a woken coroutine has a reason to be awake -/
  wk : (s.co j).paused = true → j ∉ s.sco.paused → (s.co j).canceled = true ∨ (s.co j).deadlined = true ∨ reason j s b
  /-- no lost wakeup: if what it waits for happened, it is awake or about to be woken -/
  lw : j ∈ s.sco.paused → ¬ reason j s b ∨ .co j ∈ s.lists .resumers
  rs : .co j ∈ s.lists .resumers → reason j s b
  sv : Own j s b

structure CoE (j : Nat) (s : S) : Prop where
  dd : (s.co j).deadlined = true → (s.co j).call ≠ .none → ∃ dl, callDl (s.co j).call = some dl ∧ dl < s.clock
  cc : (s.co j).canceled = true → ∃ k, .cancel k j ∈ lg j s
  st : (s.co j).call ≠ .none → (s.co j).call ≠ .work → .co j ∉ s.lists .iolist ∧ j ∉ s.jobs
  wt : (s.co j).pc = .workTry → (s.co j).call = .work ∧ .co j ∉ s.lists .iolist ∧ j ∉ s.jobs ∧ .co j ∉ s.lists .resumers
  ww : (s.co j).pc = .workWait → (s.co j).call = .work ∧ .co j ∉ s.lists .resumers ∧ s.jobs.count j ≤ 1 ∧
    (.co j ∈ s.lists .iolist → j ∉ s.jobs ∧ .wdone j ∈ sn j s) ∧ (j ∈ s.sco.paused → j ∈ s.jobs ∨ .co j ∈ s.lists .iolist) ∧
    (j ∉ s.sco.paused → .wdone j ∈ sn j s ∨ ∃ k, .cancel k j ∈ sn j s)
  rt : ∀ v, retPc (s.co j).pc = some v → RetOk j s v
  sg : ∀ k c v, (s.co j).pc = .selGot k c v → (∃ cs, selCs (s.co j).call = some cs ∧ cs[k]? = some c) ∧
    ((sn j s).filter isDeliv = [] ∨ ∃ m, (sn j s).filter isDeliv = [.take c j m])
  cw : (s.co j).pc = .relock ∨ condPc (s.co j).pc = true → ∃ q m dl, (s.co j).call = .cvWait q m dl ∧ .release m j ∈ sn j s ∧
    ((s.co j).pc = .relock → SavOk j s q m dl)
  bk : ∀ b, (s.co j).pc = .blk b → BlkOk j s b

/-- the nodes of `j` are where they belong, each in one place -/
structure CoL (j : Nat) (s : S) : Prop where
  pl : ∀ n L, n.owner = j → n ∈ s.lists L → place (s.co j) n L
  dj : ∀ n L K, n.owner = j → n ∈ s.lists L → n ∈ s.lists K → L = K

theorem InvL.coL {s : S} (h : InvL s) (j : Nat) : CoL j s :=
  ⟨fun n L ho hn => by have := h.pl L n hn; rwa [ho] at this, fun n L K _ h1 h2 => h.dj L K n h1 h2⟩

/-! ## Moves keep the places -/

theorem CoL.delta {s t : S} {j : Nat} {f : Co → Co} {es gone res up} (h : CoL j s) (d : Dlt j f es gone res up s t)
    (hf : ∀ k, view (f k) = view k) (hg : res = true → ∀ L, gone (.co j) L) : CoL j t := by
  refine ⟨?_, ?_⟩
  · intro n L ho hn
    rw [d.co]
    rcases (d.mem n L ho).mp hn with ⟨h1, _⟩ | ⟨_, h1, h2⟩
    · exact place_congr (hf _).symm (h.pl n L ho h1)
    · subst h1 h2; trivial
  · intro n L K ho h1 h2
    rcases (d.mem n L ho).mp h1 with ⟨a, b⟩ | ⟨r, a, b⟩ <;> rcases (d.mem n K ho).mp h2 with ⟨a', b'⟩ | ⟨r', a', b'⟩
    · exact h.dj n L K ho a a'
    · subst a'; exact absurd (hg r' _) b
    · subst a; exact absurd (hg r _) b'
    · rw [b, b']

theorem CoL.mv {s t : S} {j : Nat} (h : CoL j s) (m : Mv j s t) : CoL j t := by
  cases m with
  | same d => exact h.delta d (fun k => rfl) (by simp)
  | take c m hn hp hc d => exact h.delta d (fun k => rfl) (by simp)
  | takeCase c m k hn hp hc hr d => exact h.delta d (fun k => rfl) (by simp)
  | bcast c m hn hp hc d => exact h.delta d (fun k => rfl) (by simp)
  | bcastCase c m k hn hp hc hr d => exact h.delta d (fun k => rfl) (by simp)
  | close c hn hp hc d => exact h.delta d (fun k => rfl) (by simp)
  | closeCase c k hn hp hc hr d => exact h.delta d (fun k => rfl) (by simp)
  | skip g hr hg d => exact h.delta d (fun k => rfl) (by simp)
  | sent c hn hp hc d => exact h.delta d (fun k => rfl) (by simp)
  | grant m rd hn hr d => exact h.delta d (fun k => rfl) (by simp)
  | wake L now hn hL d => exact h.delta d (fun k => rfl) (by simp)
  | resumed i hp d => exact h.delta d (fun k => rfl) (by simp)
  | canceled i he d => exact h.delta d (fun k => rfl) (by simp)
  | fromRes hn d => exact h.delta d (fun k => rfl) (by simp)
  | fromIo hn d => exact h.delta d (fun k => rfl) (by simp)
  | ready fd w es hn he hes d => exact h.delta d (fun k => rfl) (by simp)
  | sigTo n hn hm d => exact h.delta d (fun k => rfl) (by simp)
  | deadlined hn hd d => exact h.delta d (fun k => rfl) (by simp)
  | wdone hj co mem pz dl ev jb log clk =>
    refine ⟨?_, ?_⟩
    · intro n L ho hn
      rw [co]
      rcases (mem n L ho).mp hn with ⟨h1, _⟩ | ⟨h1, h2⟩
      · exact h.pl n L ho h1
      · subst h1 h2; trivial
    · intro n L K ho h1 h2
      rcases (mem n L ho).mp h1 with ⟨a, b⟩ | ⟨a, b⟩ <;> rcases (mem n K ho).mp h2 with ⟨a', b'⟩ | ⟨a', b'⟩
      · exact h.dj n L K ho a a'
      · exact absurd a' b
      · exact absurd a b'
      · rw [b, b']

/-! ## Histories -/

theorem since_append {j : Nat} {es l : List Ev} (h : ∀ e ∈ es, isCallOf j e = false) : since j (es ++ l) = es ++ since j l := by
  induction es with
  | nil => rfl
  | cons e es ih =>
    have h1 := h e List.mem_cons_self
    have := ih (fun e he => h e (List.mem_cons_of_mem _ he))
    unfold since at this ⊢
    simp only [List.cons_append, List.takeWhile_cons, h1, Bool.not_false, if_true, this]

theorem sn_ext {j : Nat} {s t : S} {es : List Ev} (hl : lg j t = es ++ lg j s) (h : ∀ e ∈ es, isCallOf j e = false) : sn j t = es ++ sn j s := by
  unfold sn; rw [hl, since_append h]

theorem After.mono {r e : Ev} {l es : List Ev} (h : After r e l) : After r e (es ++ l) := by
  obtain ⟨a, b, h1, h2⟩ := h
  exact ⟨es ++ a, b, by rw [h1]; simp, by simp [h2]⟩

theorem After.now {r e : Ev} {l : List Ev} (h : r ∈ l) : After r e (e :: l) := by
  obtain ⟨a, b, h1⟩ := List.append_of_mem h
  exact ⟨e :: a, b, by rw [h1]; rfl, by simp⟩

theorem filter_quiet {p : Ev → Bool} {j : Nat} {es : List Ev} (h : ∀ e ∈ es, e = .wdone j ∨ ∃ k, e = .cancel k j)
    (h1 : p (.wdone j) = false) (h2 : ∀ k, p (.cancel k j) = false) : es.filter p = [] := by
  rw [List.filter_eq_nil_iff]; intro e he
  rcases h e he with rfl | ⟨k, rfl⟩
  · simp [h1]
  · simp [h2]

theorem CallOk.mono {j : Nat} {c : Call} {g : Option Nat} {v : Int} {d : Msg} {S es : List Ev} {clk clk' : Int} (h : CallOk j c g v d S clk)
    (hes : ∀ e ∈ es, e = .wdone j ∨ ∃ k, e = .cancel k j) (hc : clk ≤ clk') : CallOk j c g v d (es ++ S) clk' := by
  have f1 : ∀ l, (es ++ l).filter isDeliv = l.filter isDeliv := fun l => by
    rw [List.filter_append, filter_quiet hes rfl (fun _ => rfl)]; rfl
  have f2 : ∀ l, (es ++ l).filter isPut = l.filter isPut := fun l => by
    rw [List.filter_append, filter_quiet hes rfl (fun _ => rfl)]; rfl
  have f3 : ∀ e, e ∈ S → e ∈ es ++ S := fun e he => List.mem_append.mpr (.inr he)
  have f4 : ∀ m, Ev.release m j ∈ es ++ S → Ev.release m j ∈ S := fun m he => by
    rcases List.mem_append.mp he with h | h
    · rcases hes _ h with h | ⟨k, h⟩ <;> simp at h
    · exact h
  cases c <;> simp only [CallOk, f1, f2] at h ⊢ <;> try exact h
  case sleep => intro hv; exact Int.lt_of_lt_of_le (h hv) hc
  case join =>
    intro hv; rcases h hv with h | h
    · exact .inl (f3 _ h)
    · exact .inr (f3 _ h)
  case suspend => intro hv; obtain ⟨k, hk⟩ := h hv; exact ⟨k, f3 _ hk⟩
  case wgWait =>
    intro hv; rcases h hv with h | h
    · exact .inl (f3 _ h)
    · exact .inr (f3 _ h)
  case cvWait =>
    refine ⟨?_, fun hv => (h.2 hv).mono⟩
    rcases h.1 with h | h
    · exact .inl ⟨h.1, fun h' => h.2 (f4 _ h')⟩
    · exact .inr h.mono
  case work =>
    intro hv; rcases h hv with h | ⟨k, h⟩
    · exact .inl (f3 _ h)
    · exact .inr ⟨k, f3 _ h⟩
  all_goals (intro hv; exact f3 _ (h hv))

theorem RetOk.mono {j : Nat} {s t : S} {v : Int} {es : List Ev} (h : RetOk j s v) (hl : lg j t = es ++ lg j s)
    (hes : ∀ e ∈ es, e = .wdone j ∨ ∃ k, e = .cancel k j) (hc : s.clock ≤ t.clock) (h1 : (t.co j).call = (s.co j).call)
    (h2 : (t.co j).gen = (s.co j).gen) (h3 : (t.co j).rdat = (s.co j).rdat) : RetOk j t v := by
  have hs : sn j t = es ++ sn j s := sn_ext hl (fun e he => by rcases hes e he with rfl | ⟨k, rfl⟩ <;> rfl)
  refine ⟨?_, ?_, ?_⟩
  · intro hv; obtain ⟨k, hk⟩ := h.1 hv; exact ⟨k, by rw [hl]; exact List.mem_append.mpr (.inr hk)⟩
  · intro hv; obtain ⟨dl, hk⟩ := h.2.1 hv; exact ⟨dl, by rw [h1]; exact hk.1, Int.lt_of_lt_of_le hk.2 hc⟩
  · rw [h1, h2, h3, hs]; exact h.2.2.mono hes hc

theorem SavOk.mono {j : Nat} {s t : S} {es : List Ev} {q m : Nat} {dl : Int} (h : SavOk j s q m dl) (hl : lg j t = es ++ lg j s)
    (hes : ∀ e ∈ es, isCallOf j e = false) (hc : s.clock ≤ t.clock) (h1 : (t.co j).sav = (s.co j).sav) : SavOk j t q m dl := by
  unfold SavOk at h ⊢
  rw [h1, sn_ext hl hes]
  refine ⟨?_, fun hv => Int.lt_of_lt_of_le (h.2.1 hv) hc, fun hv => (h.2.2 hv).mono⟩
  intro hv; obtain ⟨k, hk⟩ := h.1 hv; exact ⟨k, by rw [hl]; exact List.mem_append.mpr (.inr hk)⟩

end Neco.Rt
