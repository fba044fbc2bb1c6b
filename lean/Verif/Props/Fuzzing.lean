import Verif.Model.Fuzzing
import Verif.Props.Position

/-! # C73: the fuzz targets find nothing

Every fuzz target returns, without a panic and without a failed assertion, on all data; but for the arithmetic overflow
of C27, for which there must be `2 ^ 32 - 1` zero bits in a row. The theorems hold for builds with and without `cfg(fuzzing)`. With it, checksums are not
compared; this is the only difference, as far as frames are concerned. -/

namespace Claxon.Props

open Claxon Spec ReadBytes Examples Fuzzing

variable [FuzzCfg] {fuel : Nat} {data : List U8}

omit [FuzzCfg] in
theorem caught_returns {α : Type} {x : Res α} (h : Returns x) :
    (∃ a, x = .ok a ∧ caught x = .ok (some a)) ∨ ((∃ e, x = .error (.err e)) ∧ caught x = .ok none) := by
  rcases h with ⟨a, rfl⟩ | ⟨e, rfl⟩
  · exact .inl ⟨a, rfl, rfl⟩
  · exact .inr ⟨⟨e, rfl⟩, rfl⟩

theorem new_memory (hf : data.length < 4 * fuel) : Returns (FlacReader.new fuel (memory data)) :=
  newExt_returns (memory_delivers data) hf

theorem new_reader {reader : FlacReader BufferedReader} (h : FlacReader.new fuel (memory data) = .ok reader) :
    ∃ r rest, reader.blocks = .ok r ∧ reader.samples = .ok (FlacSamples.new r) ∧ rest <:+ data ∧
      r.Remaining rest none := by
  obtain ⟨first, more, info, vc, r, rest, hb, -, rfl, hr⟩ := newExt_ok (memory_delivers data) h
  exact ⟨r, rest, rfl, rfl, by rw [hb]; exact List.suffix_append _ _, hr⟩

/-- **C73.** `decode_header` returns on all data. -/
theorem C73_header (hf : data.length < 4 * fuel) : decodeHeader fuel data = .ok () := by
  unfold decodeHeader
  rcases caught_returns (new_memory hf) with ⟨_, -, h⟩ | ⟨-, h⟩ <;> rw [h] <;> rfl

theorem fullLoop_of {last : Except Fail (Option (Except Error I32))} (hl : IsEnd last) :
    ∀ (samples : List I32) (fuel : Nat) (it : FlacSamples BufferedReader),
      calls FlacSamples.next (samples.length + 1) it = samples.map (fun v => .ok (some (.ok v))) ++ [last] →
      samples.length < fuel → fullLoop fuel it = .ok ()
  | [], fuel, it, h, hf => by
    obtain ⟨fuel, rfl⟩ : ∃ k, fuel = k + 1 := ⟨fuel - 1, by simp at hf; omega⟩
    have h1 : (FlacSamples.next it).1 = last := by simpa [calls] using h
    unfold fullLoop
    generalize FlacSamples.next it = x at h1 ⊢
    rcases x with ⟨x, it'⟩
    subst h1
    cases hl <;> rfl
  | v :: samples, fuel, it, h, hf => by
    obtain ⟨fuel, rfl⟩ : ∃ k, fuel = k + 1 := ⟨fuel - 1, by simp at hf; omega⟩
    rw [List.length_cons, calls] at h
    simp only [List.map_cons, List.cons_append, List.cons.injEq] at h
    obtain ⟨h1, h2⟩ := h
    unfold fullLoop
    generalize FlacSamples.next it = x at h1 h2 ⊢
    rcases x with ⟨x, it'⟩
    subst h1
    exact fullLoop_of hl samples fuel it' h2 (by simp at hf; omega)

theorem fullLoop_overflow : ∀ (samples : List I32) (fuel : Nat) (it : FlacSamples BufferedReader),
    calls FlacSamples.next (samples.length + 1) it =
      samples.map (fun v => .ok (some (.ok v))) ++ [.error (.panic .overflow)] →
    samples.length < fuel → fullLoop fuel it = .error (.panic .overflow)
  | [], fuel, it, h, hf => by
    obtain ⟨fuel, rfl⟩ : ∃ k, fuel = k + 1 := ⟨fuel - 1, by simp at hf; omega⟩
    have h1 : (FlacSamples.next it).1 = .error (.panic .overflow) := by simpa [calls] using h
    unfold fullLoop
    generalize FlacSamples.next it = x at h1 ⊢
    rcases x with ⟨x, it'⟩
    subst h1
    rfl
  | v :: samples, fuel, it, h, hf => by
    obtain ⟨fuel, rfl⟩ : ∃ k, fuel = k + 1 := ⟨fuel - 1, by simp at hf; omega⟩
    rw [List.length_cons, calls] at h
    simp only [List.map_cons, List.cons_append, List.cons.injEq] at h
    obtain ⟨h1, h2⟩ := h
    unfold fullLoop
    generalize FlacSamples.next it = x at h1 h2 ⊢
    rcases x with ⟨x, it'⟩
    subst h1
    exact fullLoop_overflow samples fuel it' h2 (by simp at hf; omega)

/-- **C73.** `decode_full` returns on all data, but for the overflow of C27. -/
theorem C73_full (hf : 20165 * data.length < fuel) :
    decodeFull fuel data = .ok () ∨
      decodeFull fuel data = .error (.panic .overflow) ∧ LongZeros (bytesToBits data) := by
  unfold decodeFull
  rcases caught_returns (new_memory (fuel := fuel) (data := data) (by omega)) with ⟨reader, ho, h⟩ | ⟨-, h⟩ <;> rw [h]
  · obtain ⟨r, rest, -, hs, hsuf, hr⟩ := new_reader ho
    obtain ⟨samples, last, h1, h2⟩ := C59_ending hr
    have hl := hsuf.length_le
    show (reader.samples >>= fun samples => fullLoop fuel samples) = _ ∨
      (reader.samples >>= fun samples => fullLoop fuel samples) = _ ∧ _
    rw [hs]
    rcases h2 with ⟨h2, h3⟩ | ⟨rfl, hz, h3⟩
    · exact .inl (fullLoop_of h2 samples fuel _ (by simpa using h3 0) (by omega))
    · exact .inr ⟨fullLoop_overflow samples fuel _ h3 (by omega), longZeros_suffix hz hsuf⟩
  · exact .inl rfl

/-- What `firstBlock` returns. -/
theorem firstBlock_cases (hf : data.length < 4 * fuel) :
    (LongZeros (bytesToBits data) ∧ ∀ buffer, firstBlock fuel data buffer = .error (.panic .overflow)) ∨
    (∀ buffer, firstBlock fuel data buffer = .ok none) ∨
    (∀ buffer, ∃ b, firstBlock fuel data buffer = .ok (some b) ∧
      ∀ buffer', ∃ b', firstBlock fuel data buffer' = .ok (some b') ∧ b.map VecI32.data = b'.map VecI32.data) := by
  rcases caught_returns (new_memory hf) with ⟨reader, ho, h⟩ | ⟨-, h⟩
  · obtain ⟨r, rest, hb, -, hsuf, hr⟩ := new_reader ho
    have run : ∀ buffer, firstBlock fuel data buffer = (do
        match ← caught (readNextOrEof buffer r).1 with
        | some (some block) => pure (some (some block.intoBuffer))
        | _ => pure (some none)) := by
      intro buffer
      unfold firstBlock
      rw [h]
      show (reader.blocks >>= _) = _
      rw [hb]
      rfl
    by_cases hov : (readNextOrEof .empty r).1 = .error (.panic .overflow)
    · refine .inl ⟨?_, fun buffer => ?_⟩
      · rcases C27_partial .empty hr with h | ⟨-, hz⟩
        · rw [hov] at h
          rcases h with ⟨_, h⟩ | ⟨_, h⟩ <;> cases h
        · exact longZeros_suffix hz hsuf
      · have := (C28_independent buffer .empty r).2
        rw [hov] at this
        rw [run]
        generalize readNextOrEof buffer r = x at this ⊢
        rcases x with ⟨f | a, r'⟩ <;> cases this
        rfl
    have ret : ∀ buffer, Returns (readNextOrEof buffer r).1 := by
      intro buffer
      refine (C27_partial buffer hr).resolve_right fun hov' => hov ?_
      have := (C28_independent buffer .empty r).2
      rw [hov'.1] at this
      generalize readNextOrEof .empty r = x at this ⊢
      rcases x with ⟨f | a, r'⟩ <;> cases this
      rfl
    refine .inr (.inr fun buffer => ?_)
    have key : ∀ buffer, ∃ b, firstBlock fuel data buffer = .ok (some b) ∧
        b.map VecI32.data = match (readNextOrEof buffer r).1.map (Option.map Block.contents) with
          | .ok (some c) => some c.2.2.2
          | _ => none := by
      intro buffer
      rw [run]
      have := ret buffer
      generalize readNextOrEof buffer r = x at this ⊢
      rcases x with ⟨x, r'⟩
      rcases this with ⟨a, this⟩ | ⟨e, this⟩ <;> simp only at this <;> subst this
      · rcases a with _ | b
        · exact ⟨none, rfl, rfl⟩
        · exact ⟨some b.intoBuffer, rfl, rfl⟩
      · exact ⟨none, rfl, rfl⟩
    obtain ⟨b, h1, h2⟩ := key buffer
    refine ⟨b, h1, fun buffer' => ?_⟩
    obtain ⟨b', h1', h2'⟩ := key buffer'
    exact ⟨b', h1', by rw [h2, h2', (C28_independent buffer buffer' r).2]⟩
  · refine .inr (.inl fun buffer => ?_)
    unfold firstBlock
    rw [h]
    rfl

/-- **C73.** `decode_single_block` returns on all data, but for the overflow of C27. -/
theorem C73_singleBlock (hf : data.length < 4 * fuel) :
    decodeSingleBlock fuel data = .ok () ∨
      decodeSingleBlock fuel data = .error (.panic .overflow) ∧ LongZeros (bytesToBits data) := by
  unfold decodeSingleBlock
  rcases firstBlock_cases hf with ⟨hz, h⟩ | h | h
  · rw [h]
    exact .inr ⟨rfl, hz⟩
  · rw [h]
    exact .inl rfl
  · obtain ⟨b, h, -⟩ := h .empty
    rw [h]
    exact .inl rfl

/-- **C73.** `diff` returns on all data, but for the overflow of C27: the second attempt to open the stream succeeds, and
the blocks are equal. -/
theorem C73_diff (hf : data.length < 4 * fuel) :
    diff fuel data = .ok () ∨
      diff fuel data = .error (.panic .overflow) ∧ LongZeros (bytesToBits (data.drop 2)) := by
  match data, hf with
  | [], _ => exact .inl rfl
  | [_], _ => exact .inl rfl
  | marker0 :: marker1 :: data, hf =>
    rw [diff]
    split
    · exact .inl rfl
    · rcases firstBlock_cases (fuel := fuel) (data := data) (by simp at hf; omega) with ⟨hz, h⟩ | h | h
      · rw [h]
        exact .inr ⟨rfl, hz⟩
      · rw [h]
        exact .inl rfl
      · left
        obtain ⟨b, h1, h2⟩ := h (markedBuffer marker0)
        obtain ⟨b', h1', h2'⟩ := h2 (markedBuffer marker1)
        have again : diffAgain fuel marker1 data b = .ok () := by
          unfold diffAgain
          rw [h1']
          exact if_pos h2'
        rw [h1]
        generalize diffAgain fuel marker1 data = again' at again ⊢
        cases b with
        | none => exact again
        | some res =>
          show (if res.cap ≠ 1024 * 8 then pure () else again' (some res)) = _
          split
          · rfl
          · exact again

omit [FuzzCfg] in
/-- **C73.** Whatever block a build with `cfg(fuzzing)` decodes, other builds decode, too, after the two checksums of the
frame have been corrected. -/
theorem C73_repaired {bytes : List U8} {fault : Option Nat} {buffer : VecI32} {r r' : BufferedReader} {b : Block}
    (hr : @BufferedReader.Remaining underFuzzing r bytes fault)
    (h : @readNextOrEof _ _ underFuzzing _ buffer r = (.ok (some b), r')) :
    ∃ (bps : Nat) (f : Frame) (c8 : U8) (c16 : U16) (rest : List U8), bytes = f.bytesWith bps c8 c16 ++ rest ∧
      @BufferedReader.Remaining underFuzzing r' rest fault ∧
      ∀ s, @BufferedReader.Remaining notFuzzing s (f.bytes bps ++ rest) fault →
        ∃ s', @readNextOrEof _ _ notFuzzing _ buffer s = (.ok (some b), s') ∧
          @BufferedReader.Remaining notFuzzing s' rest fault := by
  obtain ⟨bps, f, c8, c16, rest, hw, hb, hr', rfl⟩ := @of_buffered_any _ _ _ _ _ underFuzzing _ hr h
  exact ⟨bps, f, c8, c16, rest, hb, hr', fun s hs => buffered_frame hw buffer hs⟩

omit [FuzzCfg] in
/-- **C73.** Builds with `cfg(fuzzing)` decode all frames, whatever the checksums. -/
theorem C73_unchecked {bps : Nat} {f : Frame} (hw : f.WellFormed bps) (c8 : U8) (c16 : U16) (buffer : VecI32)
    {rest : List U8} {fault : Option Nat} {r s : BufferedReader}
    (hr : @BufferedReader.Remaining underFuzzing r (f.bytesWith bps c8 c16 ++ rest) fault)
    (hs : @BufferedReader.Remaining notFuzzing s (f.bytes bps ++ rest) fault) :
    (@readNextOrEof _ _ underFuzzing _ buffer r).1 = (@readNextOrEof _ _ notFuzzing _ buffer s).1 := by
  obtain ⟨s', h, -⟩ := buffered_frame hw buffer hs
  rw [h, @Sim.result underFuzzing _ _ _ _
      (@SimRd.readNextOrEof _ _ _ _ _ _ _ _ underFuzzing (@simBufferedRd underFuzzing fault) buffer) _ _ hr,
    @frame_any underFuzzing _ _ hw _ (fun h => nomatch h), if_neg (fun h => nomatch h.1)]

/-- On a valid file, `diff` does compare two blocks. -/
example : (@firstBlock underFuzzing _ 4 brokenFile (markedBuffer 1#8)).map (Option.map (Option.map fun v => (v.data, v.cap))) =
    .ok (some (some ([5, 7, 6, 6, 3, 4, 8, 2].map (BitVec.ofInt 32), 8192))) := by decide +kernel

/-- The same with a wrong checksum, if it is not compared; otherwise there is no block. -/
example : let file := brokenFile.take (brokenFile.length - 4) ++ [0#8, 0#8]
    (@firstBlock underFuzzing _ 4 file .empty).map (Option.map (Option.map VecI32.data)) =
      .ok (some (some ([5, 7, 6, 6, 3, 4, 8, 2].map (BitVec.ofInt 32)))) ∧
    @firstBlock notFuzzing _ 4 file .empty = .ok (some none) := by decide +kernel

example : ¬ LongZeros (bytesToBits ((1#8 :: 2#8 :: brokenFile).drop 2)) ∧ (1#8 :: 2#8 :: brokenFile).length < 4 * 100 :=
  ⟨not_longZeros (by decide +kernel), by decide +kernel⟩

/-- On data of less than half a gigabyte there is no exception. -/
example (h : data.length < 2 ^ 29) (hf : data.length < 4 * fuel) : diff fuel data = .ok () :=
  (C73_diff hf).resolve_right fun hz => not_longZeros (by rw [List.length_drop]; omega) hz.2

/-- A program that forgets to overwrite the buffer would be noticed: the buffers differ in every element. -/
example : ∀ x ∈ (markedBuffer 1#8).data, ∀ y ∈ (markedBuffer 2#8).data, x ≠ y := by
  intro x hx y hy
  rw [List.eq_of_mem_replicate hx, List.eq_of_mem_replicate hy]
  decide

end Claxon.Props
