import Verif.Proof.RtMsg5
import Verif.Proof.RtOut
import Verif.Props.RtEx
/-!
# Channels (C11 to C14)

A channel is named by the number that `neco_chan_make` produced: the `k`-th channel made has number `k`.
`content c s.log` is what channel `c` was given and what was neither taken nor withdrawn, read off the history.
-/
namespace Neco.Rt
open Neco.Err

/-! ## C11 capacity -/

/-- what a channel holds is at most `cap` messages followed by the messages of distinct senders that are still
inside their send call -/
theorem C11_capacity {ok} {s : S} (r : Reach ok s) (hf : s.fault = false) {c cap : Nat} (hm : (made s.log).reverse[c]? = some cap) (hc : (s.chan c).isSome) :
    ∃ A B, content c s.log = A ++ B ∧ A.length ≤ cap ∧ (∀ e ∈ B, Sending s e.1 c e.2) ∧ (B.map Prod.fst).Nodup ∧ (B ≠ [] → A.length = cap) := by
  obtain ⟨ch, hch⟩ := Option.isSome_iff_exists.mp hc
  have hcap : ch.cap = cap := by
    have := (reach_invK2 r).cap c ch hch
    rw [hm] at this; cases this; rfl
  obtain ⟨A, h1, h2⟩ := (reach_invM r).ok hf c ch hch
  have hok := ((reach_invC r).ok hf c).2 ch hch
  have hL := reach_invL r
  have hlen : A.length = ch.buf.length := by rw [← h2]; simp
  refine ⟨A, offers s ch c, h1, by rw [hlen, ← hcap]; exact hok.len, ?_, ?_, ?_⟩
  · intro e he
    unfold offers at he
    split at he
    · cases he
    · rename_i hq
      obtain ⟨n, hn, rfl⟩ := List.mem_map.mp he
      have hp := hok.snd (by simpa using hq) n hn
      have hpl := hL.pl _ _ hn
      cases n with
      | case j k => simp only [Node.owner] at hp hpl; simp [place, hp] at hpl
      | co j =>
        simp only [Node.owner] at hp hpl ⊢
        simp only [place, hp, true_and] at hpl
        have hpl : sendOf (s.co j) = some c := hpl.elim id (fun h => absurd h.1 (by simp))
        have hX := (reach_coX r j).sm hp
        have hcn : (s.co j).call ≠ .none := by intro e; simp [sendOf, e] at hpl
        obtain ⟨dl, hb, _⟩ := ((reach_invF r).cf j).bc _ hp
        rcases hb with ⟨k, m, hb⟩ | ⟨m, hb⟩
        · rw [hX k m dl (.inl hb)]
          simp [sendOf, hb] at hpl; subst hpl
          exact .inl ⟨dl, (pending_call r).mpr ⟨hb, by simp⟩⟩
        · rw [hX 0 m dl (.inr hb)]
          simp [sendOf, hb] at hpl
          exact .inr ⟨dl, (pending_call r).mpr ⟨hb, by simp⟩, hpl⟩
  · unfold offers
    split
    · simp
    · rename_i hq
      rw [List.map_map]
      have hnd := hL.nd (.chanQ c)
      have hco : ∀ n ∈ s.lists (.chanQ c), ∃ j, n = .co j := by
        intro n hn
        have hp := hok.snd (by simpa using hq) n hn
        have hpl := hL.pl _ _ hn
        cases n with
        | case j k => simp only [Node.owner] at hp hpl; simp [place, hp] at hpl
        | co j => exact ⟨j, rfl⟩
      refine List.Pairwise.map (R := fun a b => a ≠ b ∧ (∃ j, a = .co j) ∧ ∃ j, b = .co j) _ ?_ ?_
      · rintro a b ⟨h, ⟨j, rfl⟩, ⟨k, rfl⟩⟩ e
        simp [Node.owner] at e; exact h (by rw [e])
      · exact List.Pairwise.imp_of_mem (fun ha hb h => ⟨h, hco _ ha, hco _ hb⟩) hnd
  · intro hB
    rw [hlen, ← hcap]
    unfold offers at hB
    split at hB
    · exact absurd rfl hB
    · rename_i hq
      exact hok.full (by simpa using hq) (fun e => hB (by rw [e]; rfl))

/-- a channel of capacity 1 that holds one message and the offer of a blocked sender -/
example : ∃ s, Reach Clean s ∧ s.fault = false ∧ (made s.log).reverse[0]? = some 1 ∧ (s.chan 0).isSome = true ∧ content 0 s.log = [(1, 5), (2, 6)] := by
  obtain ⟨s, r, h⟩ := scriptC [.on 1 (.call (.chMake 1)), .on 1 (.call (.send 0 5 MAX)), .on 1 (.call .start), .on 2 (.call (.send 0 6 MAX))]
    (p := fun s => decide (s.fault = false ∧ (made s.log).reverse[0]? = some 1 ∧ (s.chan 0).isSome = true ∧ content 0 s.log = [(1, 5), (2, 6)])) (by decide +kernel)
  exact ⟨s, r, by simpa using h⟩

/-! ## C12 order -/

/-- the messages sent and not withdrawn are exactly the messages taken followed by the messages held: nothing is
invented, duplicated, lost or reordered inside the channel -/
theorem C12_order {ok} {s : S} (r : Reach ok s) (c : Nat) : (sent c s.log).map Prod.snd = taken c s.log ++ (content c s.log).map Prod.snd := by
  obtain ⟨T, h1, h2⟩ := sent_split (reach_invM r).hs c
  rw [h1, List.map_append, h2]

/-- a message that is taken is the oldest one held -/
theorem C12_oldest {ok} {s : S} (r : Reach ok s) {a b : List Ev} {c j : Nat} {m : Msg} (h : s.log = a ++ .take c j m :: b) : ∃ i rest, content c b = (i, m) :: rest :=
  (reach_invM r).hs.split h

/-- messages enter a channel only through send calls on it: `neco_chan_send`, or `neco_gen_yield` of a generator -/
theorem C12_put {ok} {s : S} (r : Reach ok s) {a b : List Ev} {c i : Nat} {m : Msg} (h : s.log = a ++ .put c i m :: b) :
    (∃ dl, pending i b = some (.send c m dl)) ∨ ∃ dl, pending i b = some (.genYield m dl) :=
  (reach_invM r).hs.split h

/-- a withdrawn message is one that is still held, and its sender is inside the send call -/
theorem C12_withdraw {ok} {s : S} (r : Reach ok s) {a b : List Ev} {c i : Nat} (h : s.log = a ++ .withdraw c i :: b) :
    (∃ m, (i, m) ∈ content c b) ∧ ((∃ m dl, pending i b = some (.send c m dl)) ∨ ∃ m dl, pending i b = some (.genYield m dl)) := by
  obtain ⟨⟨m, l1, l2, h1, _⟩, h2⟩ := (reach_invM r).hs.split h
  exact ⟨⟨m, by rw [h1]; simp⟩, h2⟩

/-- a receive that returns `NECO_OK` was given exactly one message during the call, by a send or a broadcast on
that channel, and that message is in the caller's buffer -/
theorem C12_recv_ok_partial {s : S} {i c : Nat} (f : Fresh i s) {dl : Int} {d : Msg} (h : Returns s i (.recv c dl) OK d) :
    (since i s.log).filter (delivTo i) = [.take c i d] ∨ (since i s.log).filter (delivTo i) = [.bcastTo c i d] := by
  have r := f.reach
  have e := (returns_ok f h).2.2
  simp only [CallOk, sn_deliv] at e
  exact e.1 trivial

/-- a send that returns `NECO_OK` put exactly its message into that channel, once, and did not take it back -/
theorem C12_send_ok_partial {s : S} {i c : Nat} (f : Fresh i s) {m d : Msg} {dl : Int} (h : Returns s i (.send c m dl) OK d) :
    (since i s.log).filter (putBy i) = [.put c i m] := by
  have r := f.reach
  have e := (returns_ok f h).2.2
  simp only [CallOk, sn_put] at e
  exact e trivial

example : ∃ s, Fresh 2 s ∧ Returns s 2 (.recv 0 MAX) OK 7 :=
  retF [.on 1 (.call (.chMake 0)), .on 1 (.call .start), .on 2 (.call (.recv 0 MAX)), .on 1 (.call (.send 0 7 MAX))] (by decide +kernel)
example : ∃ s, Fresh 2 s ∧ Returns s 2 (.send 0 7 MAX) OK 0 :=
  retF [.on 1 (.call (.chMake 0)), .on 1 (.call .start), .on 2 (.call (.send 0 7 MAX)), .on 1 (.call (.recv 0 MAX))] (by decide +kernel)
/-- three messages sent, one taken, two held -/
example : ∃ s, Reach Clean s ∧ sent 0 s.log = [(1, 5), (2, 6), (2, 7)] ∧ taken 0 s.log = [5] ∧ content 0 s.log = [(2, 6), (2, 7)] := by
  obtain ⟨s, r, h⟩ := scriptC [.on 1 (.call (.chMake 1)), .on 1 (.call (.send 0 5 MAX)), .on 1 (.call .start), .on 2 (.call (.send 0 6 MAX)), .on 1 (.call (.recv 0 MAX)), .on 2 (.call (.send 0 7 MAX))]
    (p := fun s => decide (sent 0 s.log = [(1, 5), (2, 6), (2, 7)] ∧ taken 0 s.log = [5] ∧ content 0 s.log = [(2, 6), (2, 7)])) (by decide +kernel)
  exact ⟨s, r, by simpa using h⟩

/-- a coroutine woken early from `neco_work` by a cancellation, then blocked in a send, is pulled out of the queue of
the channel when the background work ends: the send then returns `NECO_OK` although its message left the channel -/
theorem C12_send_ok_not_general : ¬ ∀ s i c m dl d, Reach any s → Returns s i (.send c m dl) OK d → (since i s.log).filter (putBy i) = [.put c i m] := by
  intro h
  obtain ⟨s, r, hp⟩ := scriptA [.on 1 (.call (.chMake 1)), .on 1 (.call .start), .on 2 (.call .work), .raw (.submit true), .on 1 (.call (.cancel 2 MAX)),
      .on 2 (.call (.send 0 5 MAX)), .on 2 (.call (.send 0 5 MAX)), .on 2 (.call (.send 0 6 MAX)), .raw (.wdone 2), .on 1 (.call .work), .raw (.submit true), .til (fun s => returnsB s 2 (.send 0 6 MAX) OK 0)]
    (p := fun s => returnsB s 2 (.send 0 6 MAX) OK 0 && decide ((since 2 s.log).filter (putBy 2) = [.withdraw 0 2, .put 0 2 6])) (by decide +kernel)
  simp only [Bool.and_eq_true, decide_eq_true_eq] at hp
  have := h s 2 0 6 MAX 0 r (returnsB_iff.mp hp.1)
  rw [hp.2] at this; cases this

/-! ## C13 delivery -/

/-- after a send returned `NECO_OK` its message is, among the messages sent and not withdrawn, the newest one of
that sender; by `C12_order` it is therefore held by the channel or was taken -/
theorem C13_sent_partial {s : S} {i c : Nat} (f : Fresh i s) {m d : Msg} {dl : Int} (h : Returns s i (.send c m dl) OK d) :
    ∃ l1 l2, sent c s.log = l1 ++ (i, m) :: l2 ∧ ∀ e ∈ l2, e.1 ≠ i := by
  have r := f.reach
  obtain ⟨b, hb⟩ := returns_call r h
  have h1 := C12_send_ok_partial f h
  generalize since i s.log = es at hb h1
  rw [hb]
  exact sent_newest h1

/-- the coroutine a message was handed to, when its receive ends, either returns `NECO_OK` with exactly that
message, or it timed out or was canceled -/
theorem C13_taker_partial {s : S} {i c k : Nat} (f : Fresh i s) {dl v : Int} {d m : Msg} (h : Returns s i (.recv c dl) v d) (hm : .take k i m ∈ since i s.log) :
    (v = OK ∧ k = c ∧ d = m) ∨ v = TIMEDOUT ∨ v = CANCELED := by
  have r := f.reach
  have e := (returns_ok f h).2.2
  simp only [CallOk, sn_deliv] at e
  have hin : .take k i m ∈ (since i s.log).filter (delivTo i) := List.mem_filter.mpr ⟨hm, by simp [delivTo]⟩
  rcases returns_codes r h with hv | hv | hv | hv
  · left
    rcases e.1 hv with e | e <;> rw [e] at hin <;> simp at hin
    exact ⟨hv, hin.1, hin.2.symm⟩
  · exact .inr (.inl hv)
  · exact .inr (.inr hv)
  · rw [e.2 hv] at hin; cases hin

example : ∃ s, Fresh 2 s ∧ Returns s 2 (.recv 0 MAX) OK 7 ∧ .take 0 2 7 ∈ since 2 s.log := by
  obtain ⟨s, r, h⟩ := scriptC [.on 1 (.call (.chMake 0)), .on 1 (.call .start), .on 2 (.call (.recv 0 MAX)), .on 1 (.call (.send 0 7 MAX)), .til (fun s => returnsB s 2 (.recv 0 MAX) OK 7)]
    (p := fun s => returnsB s 2 (.recv 0 MAX) OK 7 && (since 2 s.log).contains (.take 0 2 7)) (by decide +kernel)
  simp only [Bool.and_eq_true, List.contains_eq_mem, decide_eq_true_eq] at h
  exact ⟨s, (returnsB_iff.mp h.1).fresh r, returnsB_iff.mp h.1, h.2⟩

theorem pending_mem {i : Nat} {c : Call} {l : List Ev} (h : pending i l = some c) : .call i c ∈ l := by
  induction l with
  | nil => cases h
  | cons e l ih =>
    cases e <;> simp only [pending] at h
    case call j k =>
      split at h
      · rename_i hj; subst hj; cases h; exact List.mem_cons_self
      · exact List.mem_cons_of_mem _ (ih h)
    case ret =>
      split at h
      · cases h
      · exact List.mem_cons_of_mem _ (ih h)
    all_goals exact List.mem_cons_of_mem _ (ih h)

/-- a message can be lost: the send returned `NECO_OK`, the channel does not hold the message, and nobody received
it or is still receiving (the receiver it was copied to was canceled before it ran) -/
theorem C13_not_general : ¬ ∀ s i c m dl d, Reach Clean s → Returns s i (.send c m dl) OK d →
    (∃ k, (k, m) ∈ content c s.log) ∨ (∃ j dl', pending j s.log = some (.recv c dl')) ∨ ∃ j dl', .ret j (.recv c dl') OK m ∈ s.log := by
  intro h
  obtain ⟨s, r, hp⟩ := scriptC [.on 1 (.call (.chMake 0)), .on 1 (.call .start), .on 2 (.call (.recv 0 MAX)), .on 1 (.call .start), .on 3 (.call .yield),
      .on 1 (.call (.send 0 7 MAX)), .on 3 (.call (.cancel 2 MAX)), .til (fun s => s.log.contains (.ret 2 (.recv 0 MAX) CANCELED 7)), .til (fun s => returnsB s 1 (.send 0 7 MAX) OK 0)]
    (p := fun s => returnsB s 1 (.send 0 7 MAX) OK 0 && decide (content 0 s.log = []) &&
      s.log.all (fun e => match e with | .call j (.recv _ _) => j == 2 && (pending 2 s.log == none || pending 2 s.log == some .yield) | .ret _ (.recv _ _) v _ => v != OK | _ => true)) (by decide +kernel)
  simp only [Bool.and_eq_true, decide_eq_true_eq, List.all_eq_true] at hp
  obtain ⟨⟨h1, h2⟩, h3⟩ := hp
  rcases h s 1 0 7 MAX 0 r (returnsB_iff.mp h1) with ⟨k, hk⟩ | ⟨j, dl', hj⟩ | ⟨j, dl', hj⟩
  · rw [h2] at hk; cases hk
  · have := h3 _ (pending_mem hj)
    simp at this
    obtain ⟨rfl, h4 | h4⟩ := this <;> rw [hj] at h4 <;> cases h4
  · have := h3 _ hj
    simp at this

/-! ## C14 no needless blocking -/

/-- a coroutine that is blocked sending, and is not about to be woken: the channel is full, and nobody is blocked
receiving from it -/
theorem C14_send_partial {s : S} (hf : s.fault = false) {i c : Nat} (f : Fresh i s) {m : Msg} (hb : Blocked s i) (hw : ¬ Waking s i) (hp : Sending s i c m) :
    (∃ cap, (made s.log).reverse[c]? = some cap ∧ cap < (content c s.log).length) ∧ ∀ j, Fresh j s → Blocked s j → ¬ Waking s j → ¬ Receiving s j c := by
  have r := f.reach
  obtain ⟨h1, h2, h3⟩ := sender_in f hb hw hp
  have hQ := (reach_invC r).ok hf c
  cases hch : s.chan c with
  | none => rw [hQ.1 hch] at h1; cases h1
  | some ch =>
    have hok := hQ.2 ch hch
    have hq : ch.qrecv = false := by
      cases hq : ch.qrecv with
      | false => rfl
      | true => exact absurd h2 (hok.rcv hq _ h1)
    refine ⟨⟨ch.cap, (reach_invK2 r).cap c ch hch, ?_⟩, ?_⟩
    · obtain ⟨A, e1, e2⟩ := (reach_invM r).ok hf c ch hch
      have : A.length = ch.cap := by
        rw [← hok.full hq (List.ne_nil_of_mem h1), ← e2]; simp
      have : 0 < (offers s ch c).length := by unfold offers; simp [hq]; exact List.length_pos_of_mem h1
      rw [e1, List.length_append]; omega
    · intro j fj hbj hwj hpj
      obtain ⟨n, hn, ho, hne, _⟩ := receiver_in fj hbj hwj hpj
      have := hok.snd hq n hn
      rw [ho] at this; exact hne this

/-- a coroutine that is blocked receiving, and is not about to be woken: the channel holds nothing, neither in its
buffer nor from a blocked sender -/
theorem C14_recv_partial {s : S} (hf : s.fault = false) {i c : Nat} (f : Fresh i s) (hb : Blocked s i) (hw : ¬ Waking s i) (hp : Receiving s i c) : content c s.log = [] := by
  have r := f.reach
  obtain ⟨n, hn, ho, hne, _⟩ := receiver_in f hb hw hp
  have hQ := (reach_invC r).ok hf c
  cases hch : s.chan c with
  | none => rw [hQ.1 hch] at hn; cases hn
  | some ch =>
    have hok := hQ.2 ch hch
    have hq : ch.qrecv = true := by
      cases hq : ch.qrecv with
      | true => rfl
      | false => have := hok.snd hq n hn; rw [ho] at this; exact absurd this hne
    obtain ⟨A, e1, e2⟩ := (reach_invM r).ok hf c ch hch
    have := hok.emp hq (List.ne_nil_of_mem hn)
    rw [this] at e2
    rw [e1]; unfold offers; rw [if_pos hq]; simpa using e2

/-- a sender blocked on a full channel -/
example : ∃ s, Fresh 2 s ∧ s.fault = false ∧ Blocked s 2 ∧ ¬ Waking s 2 ∧ Sending s 2 0 6 := by
  obtain ⟨s, r, h⟩ := scriptC [.on 1 (.call (.chMake 1)), .on 1 (.call (.send 0 5 MAX)), .on 1 (.call .start), .on 2 (.call (.send 0 6 MAX))]
    (p := fun s => decide (s.fault = false ∧ 2 ∈ s.sco.paused ∧ .co 2 ∉ s.lists .resumers ∧ pending 2 s.log = some (.send 0 6 MAX))) (by decide +kernel)
  obtain ⟨h1, h2, h3, h4⟩ := of_decide_eq_true h
  exact ⟨s, pending_fresh r h4, h1, h2, h3, .inl ⟨_, h4⟩⟩
/-- receivers blocked on an empty channel, one of them in a select -/
example : ∃ s, (Fresh 2 s ∧ Fresh 3 s) ∧ s.fault = false ∧ (Blocked s 2 ∧ ¬ Waking s 2 ∧ Receiving s 2 0) ∧ Blocked s 3 ∧ ¬ Waking s 3 ∧ Receiving s 3 0 := by
  obtain ⟨s, r, h⟩ := scriptC [.on 1 (.call (.chMake 1)), .on 1 (.call .start), .on 2 (.call (.recv 0 MAX)), .on 1 (.call .start), .on 3 (.call (.select [0] MAX))]
    (p := fun s => decide (s.fault = false ∧ (2 ∈ s.sco.paused ∧ .co 2 ∉ s.lists .resumers ∧ pending 2 s.log = some (.recv 0 MAX)) ∧
      3 ∈ s.sco.paused ∧ .co 3 ∉ s.lists .resumers ∧ pending 3 s.log = some (.select [0] MAX))) (by decide +kernel)
  obtain ⟨h1, ⟨h2, h3, h4⟩, h5, h6, h7⟩ := of_decide_eq_true h
  exact ⟨s, ⟨pending_fresh r h4, pending_fresh r h7⟩, h1, ⟨h2, h3, .inl ⟨_, h4⟩⟩, h5, h6, .inr ⟨_, _, h7, by simp⟩⟩

/-- a receiver pulled out of the queue of the channel by the end of an abandoned background job stays blocked
although a message is there -/
theorem C14_not_general : ¬ ∀ s i c, Reach any s → s.fault = false → Blocked s i → ¬ Waking s i → Receiving s i c → content c s.log = [] := by
  intro h
  obtain ⟨s, r, hp⟩ := scriptA [.on 1 (.call (.chMake 1)), .on 1 (.call .start), .on 2 (.call .work), .raw (.submit true), .on 1 (.call (.cancel 2 MAX)),
      .on 2 (.call (.recv 0 MAX)), .on 2 (.call (.recv 0 MAX)), .raw (.wdone 2), .on 1 (.call (.send 0 7 MAX))]
    (p := fun s => decide (s.fault = false ∧ 2 ∈ s.sco.paused ∧ .co 2 ∉ s.lists .resumers ∧ pending 2 s.log = some (.recv 0 MAX) ∧ content 0 s.log = [(1, 7)])) (by decide +kernel)
  obtain ⟨h1, h2, h3, h4, h5⟩ := of_decide_eq_true hp
  have := h s 2 0 r h1 h2 h3 (.inl ⟨_, h4⟩)
  rw [h5] at this; cases this

end Neco.Rt
