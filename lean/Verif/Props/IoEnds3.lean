import Verif.Props.IoEnds2

/-! # C39, C40: undisturbed `neco_stream_close` and `neco_stream_read_byte` come back -/

namespace Neco.Io
open Neco.Err Neco.Burst

/-- **C40** an undisturbed `neco_stream_close` of a stream with bytes to write, on a descriptor that takes them: `NECO_OK`, all that was reported as written is out, and the memory of the stream is given back -/
theorem C40_close_ends {n : Nat} (hn : n < 2 ^ 64) {l : List Ev} {s : S} (r : Reach Undisturbed true n l s) {dl now : Int} {ts : List (Turn SysW)} (hb : 0 < bufferedWrite s.st)
    (hl : bufferedWrite s.st ≤ offered ts) (hf : ∀ t ∈ ts, Fair dl t) (h1 : s.w.canceled = false) (h2 : s.w.deadlined = false) :
    ∃ s', close s dl now ts = some (.ret OK, s', some (release s'.st)) ∧ s'.w.out = reported l := by
  have hbuf := reach_buf hn r
  have hw : bufferedWrite s.st = s.st.wrLen := by simp [bufferedWrite, hbuf]
  obtain ⟨s1, q1, q2, _⟩ := C40_flush_ends hn r (now := now) hb hl hf h1 h2
  unfold flush at q1
  split at q1
  · cases q1
  · rename_i r0 s0 hx
    simp only [Option.some.injEq, Prod.mk.injEq] at q1
    obtain ⟨e1, rfl⟩ := q1
    have := guardA_ret e1
    subst this
    have ho : s0.w.out = reported l := (guardA_w (.ret OK) s0.w).2.1.symm.trans q2
    obtain ⟨_, g2, _⟩ := guardE_w (.ret OK) s0.w
    unfold close
    rw [if_pos ⟨hbuf, .inr (by omega)⟩, hx]
    dsimp only
    rw [guardE_r]
    exact ⟨_, rfl, g2.trans ho⟩

/-- **C39** an undisturbed `neco_stream_read_byte` of a buffered stream: a byte that is in the buffer is returned at once, otherwise one is returned as soon as the descriptor delivers something -/
theorem C39_byte_ends {ok : Act → Prop} {c : Nat} (hc : c < 2 ^ 64) {l : List Ev} {s : S} (r : Reach ok true c l s) {dl now : Int} (hd : dl < MAX → now ≤ dl) {ts : List (Turn SysR)}
    (hb : 0 < bufferedRead s.st ∨ Delivers dl ts) (h1 : s.w.canceled = false) (h2 : s.w.deadlined = false) :
    ∃ (x : UInt8) (s' : S), readByte s dl now true ts = some (.ret x.toNat, [x], s') := by
  have hi := (reach_hist hc r).inv
  have hbuf := reach_buf hc r
  have hbr : bufferedRead s.st = s.st.rdLen := by simp [bufferedRead, hbuf]
  have hret : ∃ (m : Int) (bs : List UInt8) (s' : S), readByte s dl now true ts = some (.ret m, bs, s') ∧ 0 ≤ m := by
    unfold readByte
    by_cases hz : s.st.rdLen > 0
    · rw [if_pos ⟨hbuf, hz⟩, checkdl_calm h1 h2 hd]
      exact ⟨_, _, _, rfl, by omega⟩
    · rw [if_neg (fun e => hz e.2)]
      have hd : Delivers dl ts := by
        rcases hb with hb | hb
        · omega
        · exact hb
      obtain ⟨s', bs, q1, q2, q3, _⟩ := streamRead_ends (n := 1) hi hbuf (by decide) hd h1 h2
      have hlen : bs.length ≠ 0 := fun e => q2 (List.length_eq_zero_iff.mp e)
      have h1 : bs.length = 1 := by omega
      unfold readByte.slow
      rw [q1]
      dsimp only
      rw [if_neg (by omega)]
      exact ⟨_, _, _, rfl, by omega⟩
  obtain ⟨m, bs, s', q1, q2⟩ := hret
  rcases C39_byte hc r q1 with ⟨x, _⟩ | ⟨x, rfl, rfl⟩
  · omega
  · exact ⟨x, s', q1⟩

/-- the stream of the example for flush is closed; a byte is read from a new stream -/
example : ∃ l s, Reach Undisturbed true 4 l s ∧ (∃ s', close s 9 0 [{ sys := .err sysEAGAIN, now := 2 }, { sys := .acc 1 }, { sys := .acc 1 }] = some (.ret OK, s', some (release s'.st)) ∧ s'.w.out = [1, 2, 3, 4, 5, 6]) := by
  have r : Reach Undisturbed true 4 _ _ := runs_reach (as := exEnds) (l := []) (s := start 4) (start_reach rfl rfl rfl rfl)
    (by intro a ha; simp [exEnds] at ha; rcases ha with rfl | rfl <;> simp [Undisturbed, Calm]) rfl
  exact ⟨_, _, r, C40_close_ends (by decide) r (dl := 9) (now := 0) (by decide +kernel) (by decide +kernel)
    (by intro t ht; simp at ht; rcases ht with rfl | rfl | rfl <;> simp [Fair]) rfl rfl⟩
example : ∃ (x : UInt8) (s' : S), readByte (start 4) 9 3 true [{ sys := .err sysEAGAIN }, { sys := .data [7, 8], now := 9 }] = some (.ret x.toNat, [x], s') :=
  C39_byte_ends (ok := any) (c := 4) (by decide) (l := []) (start_reach rfl rfl rfl rfl) (by decide)
    (.inr ⟨[{ sys := .err sysEAGAIN }], { sys := .data [7, 8], now := 9 }, [], [7, 8], rfl, rfl, by simp, rfl, rfl, by simp, by intro u hu; simp at hu; subst hu; simp⟩) rfl rfl

end Neco.Io
