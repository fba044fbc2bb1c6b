import Verif.Proof.Size
import Verif.Props.Samples
import Verif.Props.Lib

/-! # C59: progress, and an end -/

namespace Claxon.Props

open Claxon Spec ReadBytes

variable {r r' : BufferedReader} {bytes : List U8} {fault : Option Nat}

/-- **C59.** Every block that is returned consumed at least eight bytes and two more per channel, and at least one
byte for every 20165 samples. -/
theorem C59_block [FuzzCfg] {buffer : VecI32} {b : Block} (hr : r.Remaining bytes fault)
    (h : readNextOrEof buffer r = (.ok (some b), r')) :
    ∃ used rest, bytes = used ++ rest ∧ r'.Remaining rest fault ∧ 8 + 2 * b.channels ≤ used.length ∧
      b.duration * b.channels ≤ 20165 * used.length := by
  obtain ⟨bps, f, c8, c16, rest, hw, hb, hr', rfl⟩ := of_buffered_any hr h
  refine ⟨f.bytesWith bps c8 c16, rest, hb, hr', ?_, ?_⟩ <;> rw [length_bytesWith]
  · have := hw.length_bytes
    show 8 + 2 * f.header.channels.count ≤ _
    omega
  · exact hw.samples_le

/-- **C59.** Any number of blocks read one after the other, into whichever buffers: there is at most one for
every ten bytes, and at most 20165 samples for every byte. -/
theorem C59_blocks [FuzzCfg] {buffer buffer' : VecI32} {blocks : List Block} (hr : r.Remaining bytes fault)
    (h : ReadsBlocks r buffer blocks r' buffer') :
    10 * blocks.length ≤ bytes.length ∧
      (blocks.map fun b => b.duration * b.channels).sum ≤ 20165 * bytes.length := by
  induction h generalizing bytes with
  | nil => simp
  | cons h _ ih =>
    obtain ⟨used, rest, rfl, hr', h1, h2⟩ := C59_block hr h
    obtain ⟨h3, h4⟩ := ih hr'
    have hc := (post_block _ _ _ _ h _ rfl).channels
    simp only [List.length_cons, List.map_cons, List.sum_cons, List.length_append]
    constructor <;> omega

theorem blockSamples_ok {b : Block} {buffer : VecI32} (h : b.Shape buffer) :
    ∃ xs : List I32, xs.length = b.duration * b.channels ∧
      blockSamples b = xs.map .ok ∧
      (List.range (b.duration * b.channels)).map (fun q => yieldOf (b.nth q)) =
        xs.map fun v => .ok (some (.ok v)) := by
  rw [blockSamples_eq (by have := h.channels; omega)]
  have gen : ∀ k, k ≤ b.duration * b.channels → ∃ xs : List I32, xs.length = k ∧
      (List.range k).map b.nth = xs.map .ok ∧
      (List.range k).map (fun q => yieldOf (b.nth q)) = xs.map fun v => .ok (some (.ok v)) := by
    intro k
    induction k with
    | zero => exact fun _ => ⟨[], rfl, rfl, rfl⟩
    | succ k ih =>
      intro hk
      obtain ⟨xs, h1, h3, h2⟩ := ih (by omega)
      obtain ⟨x, hx⟩ := h.nth_ok (p := k) (by omega)
      refine ⟨xs ++ [x], by simp [h1], by rw [List.range_succ]; simp [h3, hx], ?_⟩
      rw [List.range_succ, List.map_append, h2, List.map_append]
      simp [hx, yieldOf, Except.map]
  exact gen _ (Nat.le_refl _)

/-- How the sample iterator ends: after some samples there is an error or `None`, and from then on `None`; or there is
an arithmetic overflow, after a long run of zeros. -/
def Ending (bytes : List U8) (it : FlacSamples BufferedReader) (samples : List I32)
    (last : Except Fail (Option (Except Error I32))) [FuzzCfg] : Prop :=
  (IsEnd last ∧ ∀ more, calls FlacSamples.next (samples.length + 1 + more) it =
    samples.map (fun v => .ok (some (.ok v))) ++ last :: List.replicate more (.ok none)) ∨
  (last = .error (.panic .overflow) ∧ LongZeros (bytesToBits bytes) ∧
    calls FlacSamples.next (samples.length + 1) it = samples.map (fun v => .ok (some (.ok v))) ++ [last])

theorem samples_ending [FuzzCfg] (n : Nat) : ∀ {bytes : List U8} {r : BufferedReader} {it : FlacSamples BufferedReader}
    {buffer : VecI32}, bytes.length < n → it.AtEnd r buffer → r.Remaining bytes fault →
    ∃ (samples : List I32) (last : Except Fail (Option (Except Error I32))),
      samples.length ≤ 20165 * bytes.length ∧
      (∃ blocks r' buffer', ReadsBlocks r buffer blocks r' buffer' ∧
        blocks.flatMap blockSamples = samples.map .ok) ∧ Ending bytes it samples last := by
  induction n with
  | zero => intro bytes r it buffer hn; omega
  | succ n ih =>
    intro bytes r it buffer hn hit hr
    have hnext := FlacSamples.next_atEnd hit
    have hstep := afterBlock_step hr List.suffix_rfl buffer it
    have hend : ∀ last, IsEnd last → (FlacSamples.afterBlock buffer r).1 = last →
        ∃ (samples : List I32) (last : Except Fail (Option (Except Error I32))),
          samples.length ≤ 20165 * bytes.length ∧
          (∃ blocks r' buffer', ReadsBlocks r buffer blocks r' buffer' ∧
            blocks.flatMap blockSamples = samples.map .ok) ∧ Ending bytes it samples last := by
      intro last hl heq
      refine ⟨[], last, Nat.zero_le _, ⟨[], r, buffer, .nil, rfl⟩, .inl ⟨hl, fun more => ?_⟩⟩
      rw [List.length_nil, Nat.zero_add, Nat.add_comm, calls, hnext, heq, List.map_nil, List.nil_append]
      congr 1
      have hstop : (FlacSamples.afterBlock buffer r).2.hasFailed = true ∨
          ∃ r' : BufferedReader, (FlacSamples.afterBlock buffer r).2 = FlacSamples.new r' ∧
            r'.Remaining [] none := by
        cases hl with
        | error e => exact .inl (hstep.err e heq)
        | none => exact hstep.none heq
      rcases hstop with hf | ⟨r', h1, h2⟩
      · exact calls_failed hf more
      · rw [h1, calls_eof h2]
    rcases hx : readNextOrEof buffer r with ⟨e | _ | b, r₁⟩
    · cases e with
      | err e =>
        refine hend _ (.error e) ?_
        unfold FlacSamples.afterBlock
        rw [hx]
      | _ =>
        rcases hstep.ok with ⟨y, hy⟩ | ⟨hy, hz⟩
        · unfold FlacSamples.afterBlock at hy
          rw [hx] at hy
          cases hy
        · refine ⟨[], _, Nat.zero_le _, ⟨[], r, buffer, .nil, rfl⟩, .inr ⟨rfl, hz, ?_⟩⟩
          rw [List.length_nil, Nat.zero_add, calls, hnext, hy]
          rfl
    · refine hend _ .none ?_
      unfold FlacSamples.afterBlock
      rw [hx]
    · obtain ⟨used, rest, rfl, hr', h1, h2⟩ := C59_block hr hx
      obtain ⟨it', hit', hcalls⟩ := FlacSamples.calls_block hit hx
      obtain ⟨xs, hxs, hbs, hmap⟩ := blockSamples_ok (post_block _ _ _ _ hx _ rfl)
      rw [List.length_append] at hn
      obtain ⟨samples, last, h3, ⟨blocks, r', buffer', h6, h7⟩, h4⟩ := ih (by omega) hit' hr'
      refine ⟨xs ++ samples, last, ?_, ⟨b :: blocks, r', buffer', .cons hx h6, by
        rw [List.flatMap_cons, hbs, h7, List.map_append]⟩, ?_⟩
      · rw [List.length_append, List.length_append]
        omega
      · rcases h4 with ⟨h4, h5⟩ | ⟨h4, hz, h5⟩
        · refine .inl ⟨h4, fun more => ?_⟩
          rw [List.length_append, hxs, Nat.add_assoc, Nat.add_assoc, hcalls, hmap, ← Nat.add_assoc, h5,
            List.map_append, List.append_assoc]
        · refine .inr ⟨h4, ?_, ?_⟩
          · rw [bytesToBits_append]
            exact hz.append_left _
          · rw [List.length_append, hxs, Nat.add_assoc, hcalls, hmap, h5, List.map_append, List.append_assoc]

theorem samples_end [FuzzCfg] (n : Nat) {bytes : List U8} {r : BufferedReader} {it : FlacSamples BufferedReader}
    {buffer : VecI32} (hn : bytes.length < n) (hit : it.AtEnd r buffer) (hr : r.Remaining bytes fault)
    (hz : ¬ LongZeros (bytesToBits bytes)) :
    ∃ (samples : List I32) (last : Except Fail (Option (Except Error I32))),
      samples.length ≤ 20165 * bytes.length ∧ IsEnd last ∧
      (∃ blocks r' buffer', ReadsBlocks r buffer blocks r' buffer' ∧
        blocks.flatMap blockSamples = samples.map .ok) ∧
      ∀ more, calls FlacSamples.next (samples.length + 1 + more) it =
        samples.map (fun v => .ok (some (.ok v))) ++ last :: List.replicate more (.ok none) := by
  obtain ⟨samples, last, h1, h2, ⟨h3, h4⟩ | ⟨-, h, -⟩⟩ := samples_ending n hn hit hr
  · exact ⟨samples, last, h1, h3, h2, h4⟩
  · exact absurd h hz

/-- **C59.** On every finite stream, whatever it contains, the sample iterator comes to an end: after finitely many
samples, at most 20165 for every byte, there is `None`, one error, or the arithmetic overflow of C27. -/
theorem C59_ending [FuzzCfg] (hr : r.Remaining bytes fault) :
    ∃ (samples : List I32) (last : Except Fail (Option (Except Error I32))),
      samples.length ≤ 20165 * bytes.length ∧ Ending bytes (FlacSamples.new r) samples last := by
  obtain ⟨samples, last, h1, -, h2⟩ := samples_ending _ (Nat.lt_succ_self _) (FlacSamples.atEnd_new r) hr
  exact ⟨samples, last, h1, h2⟩

/-- **C59.** On every finite stream the sample iterator comes to an end: it yields finitely many samples, at most
20165 for every byte, then `None` or one error, and from then on `None`. -/
theorem C59_samples [FuzzCfg] (hr : r.Remaining bytes fault) (hz : ¬ LongZeros (bytesToBits bytes)) :
    ∃ (samples : List I32) (last : Except Fail (Option (Except Error I32))),
      samples.length ≤ 20165 * bytes.length ∧ IsEnd last ∧
      ∀ more, calls FlacSamples.next (samples.length + 1 + more) (FlacSamples.new r) =
        samples.map (fun v => .ok (some (.ok v))) ++ last :: List.replicate more (.ok none) := by
  obtain ⟨samples, last, h1, h2, -, h3⟩ :=
    samples_end _ (Nat.lt_succ_self _) (FlacSamples.atEnd_new r) hr hz
  exact ⟨samples, last, h1, h2, h3⟩

/-- **C59.** The same for the iterator of a reader that was opened. -/
theorem C59_stream {src : Src} {fuel : Nat} {o : FlacReaderOptions} {reader : FlacReader BufferedReader}
    (hd : src.Delivers bytes fault) (hz : ¬ LongZeros (bytesToBits bytes)) (ho : o.metadataOnly = false)
    (h : FlacReader.newExt fuel src o = .ok reader) :
    ∃ (it : FlacSamples BufferedReader) (samples : List I32)
      (last : Except Fail (Option (Except Error I32))), reader.samples = .ok it ∧
      reader.intoSamples = .ok it ∧
      samples.length ≤ 20165 * bytes.length ∧ IsEnd last ∧
      ∀ more, calls FlacSamples.next (samples.length + 1 + more) it =
        samples.map (fun v => .ok (some (.ok v))) ++ last :: List.replicate more (.ok none) := by
  obtain ⟨first, more, info, vc, r', rest, hb, -, rfl, hr⟩ := newExt_ok hd h
  obtain ⟨samples, last, h1, h2, h3⟩ := C59_samples hr
    (not_longZeros_suffix hz (by rw [hb]; exact List.suffix_append _ _))
  refine ⟨FlacSamples.new r', samples, last, ?_, ?_, ?_, h2, h3⟩
  · simp [FlacReader.make, FlacReader.samples, ho]
  · simp [FlacReader.make, FlacReader.intoSamples, ho]
  · rw [hb, List.length_append]
    omega

example : ¬ LongZeros (bytesToBits (exampleFrame.bytes 16 ++ [0xff#8, 0xff#8])) ∧
    (BufferedReader.new (bytewise (exampleFrame.bytes 16 ++ [0xff#8, 0xff#8]))).Remaining
      (exampleFrame.bytes 16 ++ [0xff#8, 0xff#8]) none ∧
    calls FlacSamples.next 11 (FlacSamples.new
      (BufferedReader.new (bytewise (exampleFrame.bytes 16 ++ [0xff#8, 0xff#8])))) =
      ([5, 3, 7, 4, 6, 8, 6, 2].map fun v => .ok (some (.ok (BitVec.ofInt 32 v)))) ++
        [.ok (some (.error (.formatError "frame sync code missing"))), .ok none, .ok none] :=
  ⟨not_longZeros (by decide +kernel), bytewise_remaining _, by decide +kernel⟩

/-- The opening of the stream of the example of C24. -/
example : ∃ reader, FlacReader.newExt 3 (bytewise (streamMarker ++
    metadataBytes (infoBlock false :: [paddingBlock false, commentBlock true]) ++
      exampleFrame.bytes 16)) .default = .ok reader :=
  (C36_open exampleMetadata (by decide) (bytewise_delivers _)).imp fun _ h => h.1

/-- The bound is nearly reached: a frame of 26 bytes with 524280 samples. -/
def bigFrame : Frame where
  header :=
    { variableBlockSize := false, blockSize := .bits16 65534, sampleRate := .table 8
      channels := .independent 7, sampleSize := .bits8, number := 0, numberLength := 0 }
  subframes := List.replicate 8 ⟨.constant 1, 0⟩
  padding := []

theorem bigFrame_wellFormed : bigFrame.WellFormed 8 where
  header := ⟨by unfold CodedNumberAccepted CodedNumberOk; decide, by decide⟩
  sampleSize := rfl
  count := rfl
  subframes := by
    intro p hp
    have : p = (8, ⟨.constant 1, 0⟩) := by
      have h : List.zip (bigFrame.header.channels.depths 8) bigFrame.subframes =
          List.replicate 8 (8, ⟨.constant 1, 0⟩) := by decide
      rw [h] at hp
      exact (List.mem_replicate.1 hp).2
    subst this
    exact ⟨by decide, by show FitsIn _ _; decide⟩
  padding := by decide
  aligned := by decide +kernel

example : (bigFrame.bytes 8).length = 26 ∧ ∃ b r',
    readNextOrEof .empty (BufferedReader.new (bytewise (bigFrame.bytes 8))) = (.ok (some b), r') ∧
    b.duration * b.channels = 524280 := by
  refine ⟨by decide +kernel, ?_⟩
  obtain ⟨r', h1, -⟩ := buffered_frame (rest := []) bigFrame_wellFormed .empty
    (by rw [List.append_nil]; exact bytewise_remaining _)
  exact ⟨_, r', h1, by decide⟩

end Claxon.Props
