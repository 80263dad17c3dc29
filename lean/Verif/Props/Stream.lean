import Verif.Proof.Stream

/-! # C39–C42, C57: streams -/

namespace Neco.Io
open Neco.Err

/-! ## Reading -/

/-- **C39** at any time, whatever calls were made, canceled, timed out or failed, and whatever the descriptor did:
the bytes the descriptor delivered are the bytes the user got, in order, then the bytes in the buffer, which are as many as `neco_stream_buffered_read_size` says -/
theorem C39_order {ok : Act → Prop} {b : Bool} {n : Nat} (hn : n < 2 ^ 64) {l : List Ev} {s : S} (r : Reach ok b n l s) :
    ∃ rest, s.w.inp = returned l ++ rest ∧ (rest.length : Int) = bufferedRead s.st := by
  have h := reach_hist hn r
  refine ⟨rdBuf s.st, h.inp, ?_⟩
  rw [rdBuf_length h.inv]
  unfold bufferedRead
  split
  · rename_i e
    have := (h.inv.rd0 (h.inv.unb e).1).2
    omega
  · rfl

/-- **C39** a read of `n` bytes puts at most `n` in the user's buffer and says how many; it says `0` only if asked for nothing -/
theorem C39_read {ok : Act → Prop} {b : Bool} {cap : Nat} (hn : cap < 2 ^ 64) {l : List Ev} {s s' : S} (r : Reach ok b cap l s)
    {n : Nat} {dl : Int} {mem : Bool} {ts : List (Turn SysR)} {m : Int} {bs : List UInt8} (h : streamRead s n dl mem ts = some (.ret m, bs, s')) :
    bs.length ≤ n ∧ (0 ≤ m → m = bs.length) ∧ (m < 0 → bs = []) ∧ (m = 0 → n = 0) := by
  obtain ⟨q1, q2, q3, q4, q5⟩ := streamRead_spec (reach_hist hn r).inv h
  refine ⟨q2, fun h0 => ?_, fun h0 => ?_, fun h0 => ?_⟩ <;> rcases q3 m rfl with ⟨x, y⟩ | ⟨x, y⟩
  · omega
  · exact x
  · exact y
  · omega
  · omega
  · rcases Nat.eq_zero_or_pos n with hz | hz
    · exact hz
    · exact absurd (List.length_eq_zero_iff.mp (by omega)) (y hz)

/-- **C39** the same for `neco_stream_readfull` -/
theorem C39_readfull {ok : Act → Prop} {b : Bool} {cap : Nat} (hn : cap < 2 ^ 64) {l : List Ev} {s s' : S} (r : Reach ok b cap l s)
    {n : Nat} {dl : Int} {mem : Bool} {tss : List (List (Turn SysR))} {m : Int} {bs : List UInt8} (h : readFull s n dl mem tss = some (.ret m, bs, s')) :
    bs.length ≤ n ∧ (0 ≤ m → m = bs.length) ∧ (m < 0 → bs = []) := by
  obtain ⟨q1, q2, q3⟩ := readFull_spec (reach_hist hn r).inv h
  refine ⟨q2, fun h0 => ?_, fun h0 => ?_⟩ <;> rcases q3 m rfl with ⟨x, y⟩ | x
  · omega
  · exact x
  · exact y
  · omega

/-- **C39** and for a single byte: the result is that byte, or negative -/
theorem C39_byte {ok : Act → Prop} {b : Bool} {cap : Nat} (hn : cap < 2 ^ 64) {l : List Ev} {s s' : S} (r : Reach ok b cap l s)
    {dl now : Int} {mem : Bool} {ts : List (Turn SysR)} {m : Int} {bs : List UInt8} (h : readByte s dl now mem ts = some (.ret m, bs, s')) :
    (m < 0 ∧ bs = []) ∨ ∃ x, bs = [x] ∧ m = x.toNat := (readByte_spec (reach_hist hn r).inv h).2.1 m rfl

/-- a history: five bytes arrive, with a cancelation in between; a byte is put back -/
def exRead : List Act :=
  [.readByte MAX 0 true [{ sys := .data [10, 11, 12] }], .read 1 MAX true [], .unread, .readFull 3 MAX true [[], [{ sys := .err sysEAGAIN }, { sys := .data [13, 14] }]],
   .other true false false 0 0, .read 2 MAX true [], .read 2 MAX true [{ sys := .data [15] }], .read 2 MAX true [{ sys := .data [16, 17] }]]
/-- run a list of calls -/
def runs : List Act → List Ev → S → Option (List Ev × S)
  | [], l, s => some (l, s)
  | a :: as, l, s => match step s a with
    | none => none
    | some (e, s') => runs as (l ++ [e]) s'
theorem runs_reach {ok : Act → Prop} {b : Bool} {n : Nat} : ∀ {as : List Act} {l l' : List Ev} {s s' : S}, Reach ok b n l s → (∀ a ∈ as, ok a) → runs as l s = some (l', s') → Reach ok b n l' s'
  | [], l, l', s, s', r, _, h => by simp [runs] at h; obtain ⟨rfl, rfl⟩ := h; exact r
  | a :: as, l, l', s, s', r, ha, h => by
    unfold runs at h
    split at h
    · cases h
    · rename_i e s1 hs
      exact runs_reach (.step r a (ha a (by simp)) hs) (fun x hx => ha x (by simp [hx])) h

/-- a buffered stream with room for `n` bytes -/
def start (n : Nat) (w : W := { async := false }) : S := { w := w, st := (make true n).getD { buffered := true } }
theorem start_reach {ok : Act → Prop} {n : Nat} (hn : (make true n).isSome = true) {w : W} (h1 : w.inp = []) (h2 : w.out = []) (h3 : w.torn = false) : Reach ok true n [] (start n w) := by
  obtain ⟨x, hx⟩ := Option.isSome_iff_exists.mp hn
  unfold start
  rw [hx]
  exact .make w hx h1 h2 h3

example : ∃ l s, Reach any true 4 l s ∧ returned l = [10, 11, 12, 13, 14, 16, 17] ∧ s.w.inp = returned l := by
  refine ⟨_, _, runs_reach (as := exRead) (l := []) (s := start 4) (start_reach rfl rfl rfl rfl) (fun _ _ => trivial) rfl, ?_, ?_⟩ <;> decide +kernel

/-! ## Writing -/

/-- **C40** when the calls that write have no deadline and nobody cancels them, whatever errors the descriptor reports: at any time the bytes it accepted, then the bytes in the buffer,
which are as many as `neco_stream_buffered_write_size` says, are the bytes reported as written -/
theorem C40_order_partial {b : Bool} {n : Nat} (hn : n < 2 ^ 64) {l : List Ev} {s : S} (r : Reach Undisturbed b n l s) :
    ∃ rest, s.w.out ++ rest = reported l ∧ (rest.length : Int) = bufferedWrite s.st := by
  have h := reach_hist hn r
  refine ⟨wrBuf s.st, h.out (reach_untorn hn r), ?_⟩
  rw [wrBuf_length h.inv]
  unfold bufferedWrite
  split
  · rename_i e
    have := h.inv.wr0 (h.inv.unb e).2.1
    omega
  · rfl

/-- **C40** after `neco_stream_flush` returns `NECO_OK` the buffer is empty, in any history: then everything reported as written was accepted by the descriptor if nothing disturbed the calls -/
theorem C40_flush {ok : Act → Prop} {b : Bool} {n : Nat} (hn : n < 2 ^ 64) {l : List Ev} {s s' : S} (r : Reach ok b n l s) {dl now : Int} {ts : List (Turn SysW)} (h : flush s dl now ts = some (.ret OK, s')) : bufferedWrite s'.st = 0 := by
  obtain ⟨q1, q2, q3, q4, q5, q6⟩ := flush_spec (reach_hist hn r).inv h
  have := congrArg List.length (q2 rfl)
  rw [wrBuf_length q1.inv] at this
  unfold bufferedWrite
  split
  · rfl
  · rw [this]; rfl

/-- **C40** after `neco_stream_close` returned `NECO_OK` the descriptor has accepted all that was reported as written, if nothing disturbed the calls -/
theorem C40_close_partial {b : Bool} {n : Nat} (hn : n < 2 ^ 64) {l : List Ev} {s s' : S} (r : Reach Undisturbed b n l s) {now : Int} {ts : List (Turn SysW)} {bl : Option (List Blk)} (hc : ∀ t ∈ ts, Calm t)
    (h : close s MAX now ts = some (.ret OK, s', bl)) : s'.w.out = reported l := by
  have hh := reach_hist hn r
  have ht := reach_untorn hn r
  have ho := hh.out ht
  unfold close at h
  split at h
  · split at h
    · cases h
    · cases h
    · rename_i r0 s0 h0
      simp only [Option.some.injEq, Prod.mk.injEq] at h
      obtain ⟨h1, rfl, rfl⟩ := h
      obtain ⟨q1, q2, q3, q4, q5, q6⟩ := flush0_spec hh.inv h0
      obtain ⟨g1, g2, g3, g4⟩ := guardE_w (.ret r0) s0.w
      rw [guardE_r] at h1
      have := q1.out (q4 ⟨rfl, hc⟩ ht)
      rw [q2 h1, List.append_nil, List.append_nil, ho] at this
      exact g2.trans this
  · rename_i hno
    simp only [Option.some.injEq, Prod.mk.injEq] at h
    obtain ⟨h1, rfl, rfl⟩ := h
    obtain ⟨g1, g2, g3, g4⟩ := guardE_w (.ret OK) s.w
    have hz : wrBuf s.st = [] := by
      apply List.length_eq_zero_iff.mp
      rw [wrBuf_length hh.inv]
      cases hb : s.st.buffered with
      | false => exact hh.inv.wr0 (hh.inv.unb hb).2.1
      | true => simp only [hb, true_and] at hno; omega
    rw [hz, List.append_nil] at ho
    exact g2.trans ho

/-- **C40** `neco_stream_close` of a stream with nothing left to write (`neco_stream_buffered_write_size` is `0`) succeeds at once: it makes no system call but the close, writes nothing, leaves a pending cancelation pending and gives the stream back -/
theorem C40_close_clean {ok : Act → Prop} {b : Bool} {n : Nat} (hn : n < 2 ^ 64) {l : List Ev} {s : S} (r : Reach ok b n l s) (h0 : bufferedWrite s.st = 0) (now : Int) (ts : List (Turn SysW)) :
    ∃ s', close s MAX now ts = some (.ret OK, s', some (release s.st)) ∧ s'.st = s.st ∧ s'.w.out = s.w.out ∧ s'.w.canceled = s.w.canceled := by
  have hz : ¬ (s.st.buffered = true ∧ (MAX < MAX ∨ s.st.wrLen > 0)) := by
    rintro ⟨hb, h | h⟩
    · exact absurd h (by omega)
    · simp only [bufferedWrite, hb, Bool.true_eq_false, if_false] at h0; omega
  unfold close
  rw [if_neg hz]
  exact ⟨_, rfl, rfl, rfl, rfl⟩
example : ∃ l s, Reach any true 4 l s ∧ bufferedWrite s.st = 0 ∧ s.w.canceled = true ∧ s.w.out = [1, 2] := by
  refine ⟨_, _, runs_reach (as := [.write [1, 2] MAX 0 true [[]], .flush MAX 0 [{ sys := .acc 2 }], .other true false true 0 0]) (l := []) (s := start 4) (start_reach rfl rfl rfl rfl) (fun _ _ => trivial) rfl, ?_⟩
  decide +kernel

/-- a history: writes of more bytes than the buffer has room for, with short writes and an error -/
def exWrite : List Act :=
  [.write [1, 2, 3] MAX 0 true [[]], .write [4, 5, 6, 7, 8, 9] MAX 0 true [[], [{ sys := .acc 3 }, { sys := .err 5 }], [{ sys := .acc 9 }]], .flush MAX 0 [{ sys := .acc 1 }, { sys := .acc 1 }, { sys := .acc 1 }, { sys := .acc 1 }]]
example : ∃ l s, Reach Undisturbed true 4 l s ∧ reported l = [1, 2, 3, 4] ∧ s.w.out = [1, 2, 3, 4] ∧ l.getLast? = some (.flush (.ret OK)) := by
  refine ⟨_, _, runs_reach (as := exWrite) (l := []) (s := start 4) (start_reach rfl rfl rfl rfl) ?_ rfl, ?_⟩
  · intro a ha
    simp only [exWrite, List.mem_cons, List.not_mem_nil, or_false] at ha
    rcases ha with rfl | rfl | rfl <;> refine ⟨rfl, ?_⟩ <;> simp [Calm]
  · decide +kernel
example : ∃ l s s' bl, Reach Undisturbed true 4 l s ∧ reported l = [1, 2, 3] ∧ close s MAX 0 [{ sys := .acc 2 }, { sys := .acc 2 }] = some (.ret OK, s', bl) ∧ s.w.out = [] ∧ s'.w.out = [1, 2, 3] := by
  refine ⟨_, _, _, _, runs_reach (as := [.write [1, 2, 3] MAX 0 true [[]]]) (l := []) (s := start 4) (start_reach rfl rfl rfl rfl) ?_ rfl, ?_, rfl, ?_, ?_⟩
  · intro a ha
    simp only [List.mem_singleton] at ha
    subst ha
    exact ⟨rfl, by simp⟩
  all_goals decide +kernel

/-- **False of the code** when a call that writes is canceled, or has a deadline: what was accepted before is sent again -/
theorem C40_order_not_general : ¬ ∀ (n : Nat) (l : List Ev) (s : S), Reach any true n l s → ∃ rest, s.w.out ++ rest = reported l := by
  intro h
  obtain ⟨rest, hr⟩ := h 4 _ _ (runs_reach (as := [.write [1, 2, 3, 4] MAX 0 true [[]], .flush MAX 0 [{ sys := .acc 2, cancel := true }, { sys := .acc 2 }], .flush MAX 0 [{ sys := .acc 4 }]]) (l := []) (s := start 4) (start_reach rfl rfl rfl rfl) (fun _ _ => trivial) rfl)
  have len : ∀ {a b c : List UInt8}, a ++ c = b → a.length ≤ b.length := by
    intro a b c e; rw [← e, List.length_append]; omega
  exact absurd (len hr) (by decide +kernel)

/-! ## The buffers -/

/-- **C41** no call accesses memory outside the buffers of the stream: in no history is there an access out of bounds -/
theorem C41_bounds {ok : Act → Prop} {b : Bool} {n : Nat} (hn : n < 2 ^ 64) {l : List Ev} {s : S} (r : Reach ok b n l s) : s.st.fault = false := (reach_hist hn r).inv.flt

/-- **C41** when a stream is given back, exactly the blocks allocated for it are given back, each of them once -/
theorem C41_release {ok : Act → Prop} {b : Bool} {n : Nat} (hn : n < 2 ^ 64) {l : List Ev} {s : S} (r : Reach ok b n l s) : s.st.heap.Perm (release s.st) := (reach_hist hn r).inv.heap

/-- **C41** whenever `neco_stream_close` returns, with success or not, all memory of the stream has been given back, each block once -/
theorem C41_close_partial {ok : Act → Prop} {b : Bool} {n : Nat} (hn : n < 2 ^ 64) {l : List Ev} {s s' : S} (r : Reach ok b n l s) {dl now : Int} {ts : List (Turn SysW)} {v : Int} {bl : Option (List Blk)}
    (h : close s dl now ts = some (.ret v, s', bl)) : ∃ blocks, bl = some blocks ∧ s'.st.heap.Perm blocks := by
  have hh := reach_hist hn r
  unfold close at h
  split at h
  · split at h
    · cases h
    · cases h
    · rename_i r0 s0 h0
      simp only [Option.some.injEq, Prod.mk.injEq] at h
      obtain ⟨_, rfl, rfl⟩ := h
      obtain ⟨q1, _⟩ := flush0_spec hh.inv h0
      exact ⟨_, rfl, q1.inv.heap⟩
  · simp only [Option.some.injEq, Prod.mk.injEq] at h
    obtain ⟨_, rfl, rfl⟩ := h
    exact ⟨_, rfl, hh.inv.heap⟩

/-- **False of the code** when the coroutine is terminated in `neco_stream_close` by a cancelation: it is in the middle of writing the rest, and neither the descriptor is closed nor the memory given back -/
theorem C41_close_not_general : ∃ l s s', Reach any true 4 l s ∧ s.w.canceled = false ∧
    close s MAX 0 [{ sys := .acc 1, cancel := true }, { sys := .acc 2 }] = some (.exit, s', none) ∧ s'.st.heap = [.hwr] := by
  refine ⟨_, _, _, runs_reach (as := [.readByte MAX 0 true [{ sys := .data [10] }], .write [1, 2, 3] MAX 0 true [[]], .other false false true 0 0]) (l := []) (s := start 4) (start_reach rfl rfl rfl rfl) (fun _ _ => trivial) rfl, ?_, rfl, ?_⟩
  all_goals decide +kernel

/-- **C41** a stream can be made with any size of buffer that leaves room for the header -/
theorem C41_make_partial {n : Nat} (hn : Fits n) : ∃ s, make true n = some s ∧ s.cap = if n = 0 then 4096 else n := by
  unfold Fits at hn
  unfold make
  simp only [if_true]
  by_cases hz : n = 0
  · subst hz; exact ⟨_, rfl, rfl⟩
  · rw [if_neg hz, if_neg (by simp only [HEADER]; rw [Nat.mod_eq_of_lt (by omega)]; omega)]
    exact ⟨_, rfl, rfl⟩

/-- **False of the code** for sizes of the buffer near `SIZE_MAX`: the size of the memory wraps around, and setting up the stream writes outside of it -/
theorem C41_make_not_general : ¬ ∀ n, n < 2 ^ 64 → (make true n).isSome = true := by
  intro h
  exact absurd (h (2 ^ 64 - 8) (by decide)) (by decide +kernel)

/-- both buffers in use, one in the stream and one allocated -/
example : ∃ l s, Reach any true 4 l s ∧ s.st.heap = [.hwr] ∧ s.st.rdAt = some .inl ∧ s.st.rdLen = 2 ∧ s.st.wrLen = 2 := by
  refine ⟨_, _, runs_reach (as := [.readByte MAX 0 true [{ sys := .data [10, 11, 12] }], .write [1, 2] MAX 0 true [[]]]) (l := []) (s := start 4) (start_reach rfl rfl rfl rfl) (fun _ _ => trivial) rfl, ?_⟩
  decide +kernel

/-! ## Putting a byte back -/

/-- a byte in the buffer is always returned -/
theorem hit {s : S} (hi : Inv s.st) (hb : s.st.buffered = true) {x : UInt8} {rest : List UInt8} (hx : rdBuf s.st = x :: rest) (dl now : Int) (ok : Bool) (ts : List (Turn SysR)) :
    ∃ w', readByte s dl now ok ts = some (.ret x.toNat, [x], { w := w', st := { s.st with rdPos := s.st.rdPos + 1, rdLen := s.st.rdLen - 1 } }) := by
  have hl : 0 < s.st.rdLen := by rw [← rdBuf_length hi, hx]; simp
  have hc := hi.rdc
  obtain ⟨blk, hr⟩ : ∃ b, s.st.rdAt = some b := by
    cases e : s.st.rdAt with
    | none => have := (hi.rd0 e).2; omega
    | some b => exact ⟨b, rfl⟩
  have hld : (load s.st s.st.rdAt s.st.rdPos 1).2 = s.st := load_in hi (fun e => by rw [hr] at e; cases e) (by omega)
  have ht : takeRd s.st 1 = ((load s.st s.st.rdAt s.st.rdPos 1).1, { (load s.st s.st.rdAt s.st.rdPos 1).2 with rdPos := s.st.rdPos + 1, rdLen := s.st.rdLen - 1 }) := by
    unfold takeRd; rw [if_neg (show ¬ s.st.rdLen < 1 by omega)]
  have hl1 : (load s.st s.st.rdAt s.st.rdPos 1).1 = [x] := by
    have := (takeRd_spec hi 1).2.1
    rw [ht, hx] at this
    simpa using this
  rw [hld, hl1] at ht
  have slow : ∀ w, ∃ w', readByte.slow dl ok ts { w := w, st := s.st } = some (.ret x.toNat, [x], { w := w', st := { s.st with rdPos := s.st.rdPos + 1, rdLen := s.st.rdLen - 1 } }) := by
    intro w
    have he : ensureRd s.st ok = (true, s.st) := by unfold ensureRd; rw [if_neg (by simp [hr])]
    have h0 : streamRead0 { w := w, st := s.st } 1 dl ok ts = some (.ret 1, [x], { w := w, st := { s.st with rdPos := s.st.rdPos + 1, rdLen := s.st.rdLen - 1 } }) := by
      simp only [streamRead0, hb, he, ht]
      rw [if_neg (by decide), if_neg (by decide), if_neg (by omega)]
      rfl
    unfold readByte.slow streamRead
    rw [h0]
    dsimp only
    rw [if_neg (by rintro ⟨h, _⟩; cases h), guardE_r]
    exact ⟨_, rfl⟩
  unfold readByte
  rw [if_pos ⟨hb, hl⟩]
  dsimp only
  split
  · rw [hl1, hld]; exact ⟨_, rfl⟩
  · exact slow _

/-- **C42** after a byte was read from a buffered stream it can be put back; then the next read of a byte, whatever its deadline, gives the same byte again and leaves the stream as it was before the byte was put back -/
theorem C42_unread {ok : Act → Prop} {n : Nat} (hn : n < 2 ^ 64) {l : List Ev} {s s1 : S} (r : Reach ok true n l s)
    {dl now : Int} {mem : Bool} {ts : List (Turn SysR)} {m : Int} {bs : List UInt8} (h : readByte s dl now mem ts = some (.ret m, bs, s1)) (hm : 0 ≤ m) :
    (unread s1).1 = OK ∧ ∀ dl' now' mem' ts', ∃ w', readByte (unread s1).2 dl' now' mem' ts' = some (.ret m, bs, { w := w', st := s1.st }) := by
  have hh := reach_hist hn r
  have hb : s.st.buffered = true := reach_buf hn r
  obtain ⟨q1, q2, q3, q4⟩ := readByte_spec hh.inv h
  rcases q2 m rfl with ⟨x, _⟩ | ⟨b, rfl, hb'⟩
  · omega
  · subst hb'
    obtain ⟨x, hx⟩ := q4 hb (by simp)
    obtain ⟨u1, u2, u3, u4, u5, u6, u7⟩ := unread_spec q1.inv
    rcases u7 with ⟨v1, v2, v3⟩ | ⟨v1, v2, p, b', v3, v4, v5⟩
    · rw [hx] at v3; simp at v3
    · refine ⟨v1, fun dl' now' mem' ts' => ?_⟩
      have hbb : b' = b := by
        have := hx.symm.trans v3
        have := congrArg List.getLast? this
        simp at this
        exact this.symm
      subst hbb
      obtain ⟨w', hw⟩ := hit u1 (u6.trans v2) v5 dl' now' mem' ts'
      refine ⟨w', hw.trans ?_⟩
      have hpos : 0 < s1.st.rdPos := by rw [← past_length q1.inv, v3]; simp
      have hun : (unread s1).2.st = { s1.st with rdPos := s1.st.rdPos - 1, rdLen := s1.st.rdLen + 1 } := by
        unfold unread
        rw [if_neg (by rw [v2]; simp; omega)]
      rw [hun]
      simp only [Nat.sub_add_cancel hpos, Nat.add_sub_cancel]

/-- **C42** putting a byte back fails with `NECO_UNREADFAIL`, and changes nothing, exactly if nothing that was read is left in the buffer; otherwise it succeeds and the byte read last is the next one -/
theorem C42_fail {ok : Act → Prop} {b : Bool} {n : Nat} (hn : n < 2 ^ 64) {l : List Ev} {s : S} (r : Reach ok b n l s) :
    ((unread s).1 = UNREADFAIL ∧ (unread s).2.st = s.st ∧ past s.st = []) ∨
    ((unread s).1 = OK ∧ ∃ x, (returned l).getLast? = some x ∧ (past s.st).getLast? = some x ∧ rdBuf (unread s).2.st = x :: rdBuf s.st) := by
  have hh := reach_hist hn r
  obtain ⟨y, hy⟩ := hh.past
  rcases (unread_spec hh.inv).2.2.2.2.2.2 with h | ⟨v1, v2, p, b', v3, v4, v5⟩
  · exact .inl h
  · refine .inr ⟨v1, b', ?_, ?_, v5⟩
    · rw [hy, v3, ← List.append_assoc]; simp
    · rw [v3]; simp

example : ∃ l s bs s1, Reach any true 4 l s ∧ readByte s MAX 0 true [] = some (.ret 11, bs, s1) := by
  refine ⟨_, _, _, _, runs_reach (as := [.readByte MAX 0 true [{ sys := .data [10, 11, 12] }]]) (l := []) (s := start 4) (start_reach rfl rfl rfl rfl) (fun _ _ => trivial) rfl, rfl⟩

/-! ## A pending cancelation -/

/-- the call tells that it was canceled: an error, or the coroutine is terminated -/
def Tells (r : Res) (w : W) : Prop := r = .exit ∨ r = .ret CANCELED ∨ (r = .ret (-1) ∧ w.errno = sysECANCELED)

theorem checkdl_canceled {w : W} (h : w.canceled = true) (dl now : Int) : checkdl w dl now = (CANCELED, { w with canceled := false, deadlined := false }) := by
  simp [checkdl, h]

/-- **C57** a coroutine that is canceled when it calls `neco_read` is told so, and nothing is read -/
theorem C57_read_partial {cnt : Nat} {dl : Int} {ts : List (Turn SysR)} {w w' : W} {r : Res} {bs : List UInt8} (hc : w.canceled = true) (h : read cnt dl ts w = some (r, bs, w')) :
    Tells r w' ∧ bs = [] ∧ w'.inp = w.inp := by
  cases ts with
  | nil => simp [read, readDl] at h
  | cons t ts =>
    simp only [read, readDl, checkdl_canceled hc] at h
    rw [if_pos (by decide)] at h
    simp only [Option.some.injEq, Prod.mk.injEq] at h
    obtain ⟨rfl, rfl, rfl⟩ := h
    obtain ⟨g1, g2, g3, g4, g5⟩ := guardA_w (.ret (-1)) { w with canceled := false, deadlined := false, errno := dlErrno CANCELED }
    refine ⟨?_, rfl, g1⟩
    unfold Tells
    rw [g4]
    simp only [guardA]; split
    · exact .inl rfl
    · exact .inr (.inr ⟨rfl, by decide⟩)

/-- **C57** the same for `neco_write`: nothing is written -/
theorem C57_write_partial {d : List UInt8} {dl : Int} {ts : List (Turn SysW)} {w w' : W} {r : Res} (hc : w.canceled = true) (h : write d dl ts w = some (r, w')) :
    Tells r w' ∧ w'.out = w.out := by
  cases ts with
  | nil => simp [write, writeLoop] at h
  | cons t ts =>
    simp only [write, writeLoop, checkdl_canceled hc] at h
    rw [if_pos (by decide)] at h
    dsimp only at h
    have hx : ∀ w0 : W, (guardA (.ret (-1)) w0).1 = .ret (-1) ∨ (guardA (.ret (-1)) w0).1 = .exit := by
      intro w0; simp only [guardA]; split
      · exact .inr rfl
      · exact .inl rfl
    generalize hw : ({ w with canceled := false, deadlined := false, errno := dlErrno CANCELED, torn := w.torn || decide (0 < 0) } : W) = w0 at h
    obtain ⟨g1, g2, g3, g4, g5⟩ := guardA_w (.ret (-1)) w0
    have e1 : w0.errno = sysECANCELED := by rw [← hw]; rfl
    have e2 : w0.out = w.out := by rw [← hw]
    split at h
    · simp only [Option.some.injEq, Prod.mk.injEq] at h
      obtain ⟨rfl, rfl⟩ := h
      exact ⟨.inl rfl, g2.trans e2⟩
    · rename_i m hm
      simp only [Option.some.injEq, Prod.mk.injEq] at h
      obtain ⟨rfl, rfl⟩ := h
      have hm' : m = -1 := by
        rcases hx w0 with k | k <;> rw [k] at hm
        · injection hm with hm; exact hm.symm
        · cases hm
      subst hm'
      rw [if_neg (by omega)]
      exact ⟨.inr (.inr ⟨rfl, g4.trans e1⟩), g2.trans e2⟩

theorem Tells.guardE {r : Res} {w : W} (h : Tells r w) : Tells (guardE r w).1 (guardE r w).2 := by
  cases r with
  | exit => exact .inl rfl
  | ret n => exact h
theorem Tells.guardA {r : Res} {w : W} (h : Tells r w) : Tells (guardA r w).1 (guardA r w).2 := by
  cases r with
  | exit => exact .inl rfl
  | ret n =>
    simp only [Io.guardA]
    split
    · exact .inl rfl
    · rcases h with h | h | h
      · cases h
      · exact .inr (.inl h)
      · exact .inr (.inr h)

/-- **C57** with `neco_stream_read` it is told so, or is still canceled after the call (when there was data in the buffer) -/
theorem C57_stream_read_partial {s s' : S} {n : Nat} {dl : Int} {ok : Bool} {ts : List (Turn SysR)} {r : Res} {bs : List UInt8} (hc : s.w.canceled = true) (h : streamRead s n dl ok ts = some (r, bs, s')) :
    (Tells r s'.w ∧ bs = []) ∨ s'.w.canceled = true := by
  have key : ∀ r bs s', streamRead0 s n dl ok ts = some (r, bs, s') → (Tells r s'.w ∧ bs = []) ∨ s'.w.canceled = true := by
    intro r bs s' h
    unfold streamRead0 at h
    split at h
    · split at h
      · cases h
      · rename_i hr
        cases h
        have q := C57_read_partial hc hr
        exact .inl ⟨q.1, q.2.1⟩
    · dsimp only at h
      split at h
      · cases h; exact .inr hc
      · split at h
        · split at h
          · cases h
          · rename_i hr
            cases h
            exact .inl ⟨.inl rfl, rfl⟩
          · rename_i m0 bs0 w0 hr
            obtain ⟨q1, q2, q3⟩ := C57_read_partial hc hr
            have hm : m0 = -1 ∧ w0.errno = sysECANCELED := by
              rcases q1 with q | q | q
              · cases q
              · injection q with q
                have := (read_spec hr).2.2.2.2.1 m0 rfl
                rw [q2] at this
                rcases this with ⟨this, _⟩ | ⟨this, _⟩ <;> rw [q] at this <;> exact absurd this (by decide)
              · exact ⟨by injection q.1, q.2⟩
            rw [if_pos hm.1] at h
            cases h
            exact .inl ⟨.inr (.inl (by rw [hm.2]; decide)), rfl⟩
        · cases h; exact .inr hc
  unfold streamRead at h
  split at h
  · cases h
  · rename_i r0 bs0 s0 h0
    simp only [Option.some.injEq, Prod.mk.injEq] at h
    obtain ⟨rfl, rfl, rfl⟩ := h
    rcases key _ _ _ h0 with ⟨h1, h2⟩ | h1
    · left
      refine ⟨?_, h2⟩
      split
      · rename_i hx
        rw [hx.1] at h1
        rcases h1 with h1 | h1 | ⟨h1, _⟩ <;> exact absurd h1 (by decide)
      · exact h1.guardE
    · right
      generalize (if r0 = .ret 0 ∧ n > 0 ∧ s0.w.lasterr = OK then Res.ret EOF else r0) = r1
      cases r1 <;> exact h1

/-- **C57** and with `neco_stream_flush` on a buffered stream it is told so, and nothing is written -/
theorem C57_flush_partial {s s' : S} {dl now : Int} {ts : List (Turn SysW)} {r : Res} (hc : s.w.canceled = true) (h : flush s dl now ts = some (r, s')) :
    Tells r s'.w ∧ s'.w.out = s.w.out := by
  have key : ∀ r s', flush0 s dl now ts = some (r, s') → Tells r s'.w ∧ s'.w.out = s.w.out := by
    intro r s' h
    unfold flush0 at h
    split at h
    · rw [checkdl_canceled hc] at h
      cases h
      exact ⟨.inr (.inl rfl), rfl⟩
    · dsimp only at h
      split at h
      · cases h
      · rename_i hw
        cases h
        exact C57_write_partial hc hw
      · rename_i n w0 hw
        obtain ⟨q1, q2⟩ := C57_write_partial hc hw
        have hm : n < 0 ∧ (n = -1 → w0.errno = sysECANCELED) := by
          rcases q1 with q | q | q
          · cases q
          · injection q with q; rw [q]; exact ⟨by decide, fun e => absurd e (by decide)⟩
          · injection q.1 with q'; exact ⟨by omega, fun _ => q.2⟩
        have hge := (write_inp hw).2 n rfl
        rw [if_pos (by omega), if_neg (by omega)] at h
        cases h
        exact ⟨.inr (.inl (by rw [hm.2 (by omega)]; decide)), q2⟩
  unfold flush at h
  split at h
  · cases h
  · rename_i r0 s0 h0
    simp only [Option.some.injEq, Prod.mk.injEq] at h
    obtain ⟨rfl, rfl⟩ := h
    obtain ⟨k1, k2⟩ := key _ _ h0
    obtain ⟨g1, g2, g3⟩ := guardA_w r0 s0.w
    exact ⟨k1.guardA, g2.trans k2⟩

/-- **C57** and with `neco_stream_read_byte` when nothing is in the buffer -/
theorem C57_byte_partial {s s' : S} {dl now : Int} {ok : Bool} {ts : List (Turn SysR)} {r : Res} {bs : List UInt8} (hc : s.w.canceled = true) (he : s.st.rdLen = 0) (h : readByte s dl now ok ts = some (r, bs, s')) :
    (Tells r s'.w ∧ bs = []) ∨ s'.w.canceled = true := by
  unfold readByte at h
  rw [if_neg (by omega)] at h
  unfold readByte.slow at h
  split at h
  · cases h
  · rename_i h0
    cases h
    exact C57_stream_read_partial hc h0
  · rename_i m bs0 s0 h0
    split at h
    · cases h
      exact C57_stream_read_partial hc h0
    · rename_i hm
      cases h
      rcases C57_stream_read_partial hc h0 with ⟨h1, h2⟩ | h1
      · rw [show m = 1 by simpa using hm] at h1
        rcases h1 with h1 | h1 | ⟨h1, _⟩ <;> exact absurd h1 (by decide)
      · exact .inr h1

/-- the hypotheses are met -/
example : ∃ w', read 3 MAX [{ sys := .data [1] }] { canceled := true, async := false } = some (.ret (-1), [], w') ∧ w'.errno = sysECANCELED := ⟨_, rfl, rfl⟩
example : ∃ w', write [1, 2] MAX [{ sys := .acc 2 }] { canceled := true, async := true } = some (.exit, w') ∧ w'.out = [] := ⟨_, rfl, rfl⟩

/-- a stream with two bytes in the buffer for reading, and a coroutine that is canceled -/
def pending : List Act := [.readByte MAX 0 true [{ sys := .data [10, 11, 12] }], .other true false false 0 0]

/-- **False of the code**: `neco_stream_read_byte` with a byte in the buffer returns it, and the cancelation is forgotten -/
theorem C57_byte_not_general : ¬ ∀ (l : List Ev) (s s' : S) (m : Int) (bs : List UInt8), Reach any true 4 l s → s.w.canceled = true → readByte s MAX 0 true [] = some (.ret m, bs, s') → 0 ≤ m → s'.w.canceled = true := by
  intro h
  have := h _ _ _ 11 _ (runs_reach (as := pending) (l := []) (s := start 4) (start_reach rfl rfl rfl rfl) (fun _ _ => trivial) rfl) rfl rfl (by decide)
  exact absurd this (by decide +kernel)

/-- **False of the code**: `neco_stream_readfull` returns the bytes of the buffer, and the cancelation is forgotten -/
theorem C57_readfull_not_general : ¬ ∀ (l : List Ev) (s s' : S) (m : Int) (bs : List UInt8) (tss : List (List (Turn SysR))), Reach any true 4 l s → s.w.canceled = true → readFull s 3 MAX true tss = some (.ret m, bs, s') → 0 ≤ m → s'.w.canceled = true := by
  intro h
  have := h _ _ _ 2 _ [[], [{ sys := .data [13] }]] (runs_reach (as := pending) (l := []) (s := start 4) (start_reach rfl rfl rfl rfl) (fun _ _ => trivial) rfl) rfl rfl (by decide)
  exact absurd this (by decide +kernel)

/-- **False of the code**: `neco_stream_write` returns the number of bytes it put in the buffer, and the cancelation is forgotten -/
theorem C57_stream_write_not_general : ¬ ∀ (l : List Ev) (s s' : S) (m : Int) (k : Nat) (tss : List (List (Turn SysW))), Reach any true 4 l s → s.w.canceled = true → streamWrite s [1, 2, 3, 4, 5] MAX 0 true tss = some (.ret m, k, s') → 0 ≤ m → s'.w.canceled = true := by
  intro h
  have := h _ _ _ 4 _ [[], [{ sys := .acc 4 }]] (runs_reach (as := pending) (l := []) (s := start 4) (start_reach rfl rfl rfl rfl) (fun _ _ => trivial) rfl) rfl rfl (by decide)
  exact absurd this (by decide +kernel)

end Neco.Io
