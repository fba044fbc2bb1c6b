import Verif.Spec.Reuse
import Verif.Props.Lib

/-! # C64: using one reader several times -/

namespace Claxon.Props

open Claxon Spec ReadBytes

theorem after_add {σ α : Type} (m : Dec σ α) (j : Nat) : ∀ (k : Nat) (s : σ),
    after m (k + j) s = after m j (after m k s)
  | 0, s => by rw [Nat.zero_add]; rfl
  | k + 1, s => by rw [Nat.succ_add]; exact after_add m j k _

theorem calls_take {σ α : Type} (m : Dec σ α) : ∀ (n k : Nat) (s : σ), calls m n s = (calls m (n + k) s).take n
  | 0, _, _ => by simp [calls]
  | n + 1, k, s => by
    rw [Nat.succ_add, calls, calls, List.take_succ_cons, ← calls_take m n k]

/-- After one to all samples of a block. -/
theorem after_block {σ : Type} [ReadBytes σ] {it : FlacSamples σ} {s s' : σ} {buffer : VecI32} {b : Block}
    (h : it.AtEnd s buffer) (hb : readNextOrEof buffer s = (.ok (some b), s')) :
    ∀ j < b.duration * b.channels, after FlacSamples.next (j + 1) it = FlacSamples.at s' b j
  | 0, _ => by
    obtain ⟨x, -, h2⟩ := FlacSamples.next_block h hb
    show (FlacSamples.next it).2 = _
    rw [h2]
  | j + 1, hj => by
    obtain ⟨x, -, h2⟩ := FlacSamples.next_inside (post_block buffer _ _ _ hb b rfl) s' hj
    rw [after_add _ 1 (j + 1), after_block h hb j (by omega)]
    show (FlacSamples.next (FlacSamples.at s' b j)).2 = _
    rw [h2]

/-- After all samples of some blocks. -/
theorem after_blocks {σ : Type} [ReadBytes σ] {it : FlacSamples σ} {s s' : σ} {buffer buffer' : VecI32}
    {blocks : List Block} (h : it.AtEnd s buffer) (hb : ReadsBlocks s buffer blocks s' buffer') :
    (after FlacSamples.next (blocks.map fun b => b.duration * b.channels).sum it).AtEnd s' buffer' := by
  induction hb generalizing it with
  | nil => exact h
  | cons hread next ih =>
    rename_i s s₁ s' buffer buffer' b blocks
    have hs := post_block buffer _ _ _ hread b rfl
    have hpos : 0 < b.duration * b.channels := by
      have := hs.channels; have := hs.blockSize
      exact Nat.mul_pos (by show 0 < b.blockSize; omega) (by omega)
    rw [List.map_cons, List.sum_cons, after_add]
    refine ih ?_
    have h1 := after_block h hread (b.duration * b.channels - 1) (by omega)
    rw [Nat.sub_add_cancel hpos] at h1
    rw [h1]
    exact FlacSamples.atEnd_at hs s₁ (by omega)

/-- **C64.** With any reader and any stream: when the sample iterator is dropped after some, but at least one, of
the samples of a block, the reader is where `read_next_or_eof` left it after that block, and the next use begins
with the frame that follows. -/
theorem C64_resume {σ : Type} [ReadBytes σ] {reader : FlacReader σ} {s s' : σ} {blocks : List Block} {b : Block}
    {buffer : VecI32} (hs : reader.input = .full s) (h : ReadsBlocks s .empty (blocks ++ [b]) s' buffer) {n : Nat}
    (h1 : (blocks.map fun b => b.duration * b.channels).sum < n)
    (h2 : n ≤ (blocks.map fun b => b.duration * b.channels).sum + b.duration * b.channels) :
    Use.run reader (.samples n) =
      .ok (.samples ((((blocks ++ [b]).flatMap blockSamples).take n).map fun x => x.map fun v => some (.ok v)),
        { reader with input := .full s' }) := by
  have split : ∃ s₁ buffer₁, ReadsBlocks s .empty blocks s₁ buffer₁ ∧
      readNextOrEof buffer₁ s₁ = (.ok (some b), s') := by
    clear h1 h2 hs
    generalize VecI32.empty = buffer₀ at h
    induction blocks generalizing s buffer₀ with
    | nil =>
      cases h with
      | cons h next => cases next; exact ⟨_, _, .nil, h⟩
    | cons b' blocks ih =>
      cases h with
      | cons h next =>
        obtain ⟨s₁, buffer₁, h3, h4⟩ := ih _ next
        exact ⟨s₁, buffer₁, .cons h h3, h4⟩
  obtain ⟨s₁, buffer₁, h3, h4⟩ := split
  have h5 := after_block (after_blocks (FlacSamples.atEnd_new s) h3) h4
    (n - (blocks.map fun b => b.duration * b.channels).sum - 1) (by omega)
  rw [← after_add] at h5
  rw [show (blocks.map fun b => b.duration * b.channels).sum +
    (n - (blocks.map fun b => b.duration * b.channels).sum - 1 + 1) = n by omega] at h5
  have h6 := C33_blocks h
  have hlen : ((blocks ++ [b]).flatMap blockSamples).length =
      (blocks.map fun b => b.duration * b.channels).sum + b.duration * b.channels := by
    rw [List.length_flatMap, List.map_append, List.sum_append]
    simp only [length_blockSamples, List.map_cons, List.map_nil, List.sum_cons, List.sum_nil, Nat.add_zero]
  have h7 := calls_take FlacSamples.next n (((blocks ++ [b]).flatMap blockSamples).length - n) (FlacSamples.new s)
  rw [Nat.add_sub_cancel' (by omega), h6, ← List.map_take] at h7
  unfold Use.run FlacReader.samples
  rw [hs]
  show Except.ok (Got.samples (calls FlacSamples.next n (FlacSamples.new s)),
    reader.afterBorrow (after FlacSamples.next n (FlacSamples.new s)).frameReader) = _
  rw [h7, h5]
  rfl

/-- The frames of which no sample has been yielded after `n` samples. -/
def framesAfter (n : Nat) : List Encoded → List Encoded
  | [] => []
  | e :: es => if n = 0 then e :: es else framesAfter (n - (Encoded.samples [e]).length) es

/-- The frames that are left for the next use. -/
def framesLeft (es : List Encoded) : Use → List Encoded
  | .samples n => framesAfter n es
  | .blocks buffers => es.drop buffers.length

/-- What a use has to give, when the frames `es` are still to come: the first `n` samples, or the first blocks, and
`None` where there are no more. -/
def Shows (es : List Encoded) : Use → Got → Prop
  | .samples n, .samples xs =>
    xs = ((Encoded.samples es).take n).map yields ++ List.replicate (n - (Encoded.samples es).length) (.ok none)
  | .blocks buffers, .blocks xs => ∃ blocks : List Block,
    xs = blocks.map (fun b => .ok (some b)) ++ List.replicate (buffers.length - es.length) (.ok none) ∧
    List.Forall₂ (fun e b => b.Holds e.frame.header.time e.channels) (es.take buffers.length) blocks
  | _, _ => False

/-- What several uses have to give. -/
def ShowsAll : List Encoded → List Use → List Got → Prop
  | _, [], [] => True
  | es, use :: uses, got :: gots => Shows es use got ∧ ShowsAll (framesLeft es use) uses gots
  | _, _, _ => False

theorem after_eof {it : FlacSamples BufferedReader} {r : BufferedReader} {buffer : VecI32}
    (hit : it.AtEnd r buffer) (h : r.Remaining [] none) (n : Nat) :
    (after FlacSamples.next n it).frameReader.Remaining [] none := by
  induction n generalizing it r buffer with
  | zero => show it.frameReader.Remaining [] none; rw [hit.reader]; exact h
  | succ n ih =>
    obtain ⟨r', h1, h2⟩ := Sim.ok ((simBufferedRd none).readNextOrEof buffer) h (readNextOrEof_nil buffer)
    have h3 : FlacSamples.next it = (.ok none, FlacSamples.new r') := by
      rw [FlacSamples.next_atEnd hit]
      unfold FlacSamples.afterBlock
      rw [h1]
      rfl
    show (after FlacSamples.next n (FlacSamples.next it).2).frameReader.Remaining [] none
    rw [h3]
    exact ih (FlacSamples.atEnd_new r') h2

theorem after_frames (es : List Encoded) {it : FlacSamples BufferedReader} {r : BufferedReader} {buffer : VecI32}
    (hit : it.AtEnd r buffer) (h : r.Remaining (Encoded.stream es) none) (n : Nat) :
    (after FlacSamples.next n it).frameReader.Remaining (Encoded.stream (framesAfter n es)) none := by
  induction es generalizing it r buffer n with
  | nil => exact after_eof hit h n
  | cons e es ih =>
    unfold framesAfter
    by_cases hn : n = 0
    · rw [if_pos hn, hn]
      show it.frameReader.Remaining _ none
      rw [hit.reader]
      exact h
    · rw [if_neg hn]
      obtain ⟨b, r₁, h1, h2, h3⟩ := C23_lossless e.encodes buffer
        (show r.Remaining (e.frame.bytes e.bps ++ Encoded.stream es) none from h)
      have hs := post_block buffer _ _ _ h1 b rfl
      have hlen : (Encoded.samples [e]).length = b.duration * b.channels := by
        have hd : b.duration = e.frame.header.blockSize.size := by
          have hc := e.encodes.count
          have := count_bounds e.frame.header.channels
          obtain ⟨c, cs, hcs⟩ : ∃ c cs, e.channels = c :: cs := by
            cases h : e.channels with
            | nil => rw [h] at hc; simp at hc; omega
            | cons c cs => exact ⟨c, cs, rfl⟩
          rw [← h3.duration c (by simp [hcs]), e.encodes.size c (by simp [hcs])]
        have := congrArg List.length (blockSamples_holds hs h3)
        rw [length_blockSamples, List.length_map, hd] at this
        rw [hd, this]
        simp [Encoded.samples]
      have hpos : 0 < b.duration * b.channels := by
        have := hs.channels; have := hs.blockSize
        exact Nat.mul_pos (by show 0 < b.blockSize; omega) (by omega)
      by_cases hle : n ≤ b.duration * b.channels
      · have h4 := after_block hit h1 (n - 1) (by omega)
        rw [Nat.sub_add_cancel (by omega)] at h4
        rw [h4, hlen, Nat.sub_eq_zero_of_le hle]
        have : framesAfter 0 es = es := by cases es <;> rfl
        rw [this]
        exact h2
      · have h4 := after_block hit h1 (b.duration * b.channels - 1) (by omega)
        rw [Nat.sub_add_cancel hpos] at h4
        have h5 := ih (FlacSamples.atEnd_at hs r₁ (p := b.duration * b.channels - 1) (by omega)) h2
          (n - b.duration * b.channels)
        rw [← h4, ← after_add, Nat.add_sub_cancel' (by omega)] at h5
        rw [hlen]
        exact h5

theorem readInto_eof {r : BufferedReader} (h : r.Remaining [] none) (buffers : List VecI32) :
    (Spec.readInto buffers r).1 = List.replicate buffers.length (.ok none) ∧
      (Spec.readInto buffers r).2.Remaining [] none := by
  induction buffers generalizing r with
  | nil => exact ⟨rfl, h⟩
  | cons buffer buffers ih =>
    obtain ⟨r', h1, h2⟩ := Sim.ok ((simBufferedRd none).readNextOrEof buffer) h (readNextOrEof_nil buffer)
    unfold Spec.readInto
    rw [h1]
    exact ⟨by rw [(ih h2).1]; rfl, (ih h2).2⟩

theorem readInto_frames (es : List Encoded) {r : BufferedReader} (h : r.Remaining (Encoded.stream es) none)
    (buffers : List VecI32) :
    Shows es (.blocks buffers) (.blocks (Spec.readInto buffers r).1) ∧
      (Spec.readInto buffers r).2.Remaining (Encoded.stream (es.drop buffers.length)) none := by
  induction es generalizing r buffers with
  | nil =>
    obtain ⟨h1, h2⟩ := readInto_eof h buffers
    refine ⟨⟨[], by rw [h1]; rfl, by rw [List.take_nil]; exact .nil⟩, ?_⟩
    rw [List.drop_nil]
    exact h2
  | cons e es ih =>
    cases buffers with
    | nil => exact ⟨⟨[], by simp [Spec.readInto], .nil⟩, h⟩
    | cons buffer buffers =>
      obtain ⟨b, r₁, h1, h2, h3⟩ := C23_lossless e.encodes buffer
        (show r.Remaining (e.frame.bytes e.bps ++ Encoded.stream es) none from h)
      obtain ⟨⟨blocks, h4, h5⟩, h6⟩ := ih h2 buffers
      unfold Spec.readInto
      rw [h1]
      refine ⟨⟨b :: blocks, ?_, ?_⟩, h6⟩
      · rw [h4, List.length_cons, List.length_cons, Nat.add_sub_add_right]
        rfl
      · exact .cons h3 h5

/-- One use. -/
theorem use_frames {reader : FlacReader BufferedReader} {r : BufferedReader} (es : List Encoded)
    (hs : reader.input = .full r) (h : r.Remaining (Encoded.stream es) none) (use : Use) :
    ∃ got r', use.run reader = .ok (got, { reader with input := .full r' }) ∧ Shows es use got ∧
      r'.Remaining (Encoded.stream (framesLeft es use)) none := by
  cases use with
  | samples n =>
    refine ⟨.samples (calls FlacSamples.next n (FlacSamples.new r)),
      (after FlacSamples.next n (FlacSamples.new r)).frameReader, ?_, ?_,
      after_frames es (FlacSamples.atEnd_new r) h n⟩
    · unfold Use.run FlacReader.samples
      rw [hs]
      rfl
    · have h1 := C33_frames es h n
      have h2 := calls_take FlacSamples.next n (Encoded.samples es).length (FlacSamples.new r)
      rw [Nat.add_comm, h1, List.take_append, List.length_map, ← List.map_take, List.take_replicate,
        Nat.min_eq_left (by omega)] at h2
      exact h2
  | blocks buffers =>
    obtain ⟨h1, h2⟩ := readInto_frames es h buffers
    refine ⟨.blocks (Spec.readInto buffers r).1, (Spec.readInto buffers r).2, ?_, h1, h2⟩
    unfold Use.run FlacReader.blocks
    rw [hs]
    rfl

/-- **C64.** One may call `samples()` and `blocks()` as often as one likes, in any order, on one reader. Each use
goes on with the first frame of which no sample has been yielded; the rest of a block of which some samples
were yielded is lost; no frame is skipped or read twice; and the metadata stays as it is. -/
theorem C64_uses {reader : FlacReader BufferedReader} {r : BufferedReader} (es : List Encoded)
    (hs : reader.input = .full r) (h : r.Remaining (Encoded.stream es) none) (uses : List Use) :
    ∃ gots reader', runUses reader uses = .ok (gots, reader') ∧ ShowsAll es uses gots ∧
      reader'.streaminfo = reader.streaminfo ∧ reader'.vorbisComment = reader.vorbisComment := by
  induction uses generalizing reader r es with
  | nil => exact ⟨[], reader, rfl, trivial, rfl, rfl⟩
  | cons use uses ih =>
    obtain ⟨got, r', h1, h2, h3⟩ := use_frames es hs h use
    obtain ⟨gots, reader', h4, h5, h6, h7⟩ := ih (reader := { reader with input := .full r' }) _ rfl h3
    refine ⟨got :: gots, reader', ?_, ⟨h2, h5⟩, h6, h7⟩
    unfold runUses
    rw [h1]
    show (runUses _ uses >>= _) = _
    rw [h4]
    rfl

variable {src : Src} {fuel : Nat} {first : EncodedBlock} {more : List EncodedBlock} {info : StreamInfo}

/-- **C64.** The same for a stream from its beginning. -/
theorem C64_stream (es : List Encoded) (hc : Complete (first :: more))
    (h1 : first.block = .streamInfo info) (h2 : ∀ b ∈ more, ¬ IsStreaminfo b)
    (h3 : (commentsIn more).length ≤ 1) (hf : more.length < fuel)
    (hd : src.Delivers (streamMarker ++ metadataBytes (first :: more) ++ Encoded.stream es) none)
    (uses : List Use) :
    ∃ reader gots reader', FlacReader.new fuel src = .ok reader ∧ runUses reader uses = .ok (gots, reader') ∧
      ShowsAll es uses gots ∧ reader'.streaminfo = info := by
  obtain ⟨r', h4, h5⟩ := newExt_of
    (metadata_of_complete (o := FlacReaderOptions.default) rfl hc h1 h2 h3) hf hd
  obtain ⟨gots, reader', h6, h7, h8, -⟩ := C64_uses (r := r') (reader := FlacReader.make .default info _ r') es rfl h5 uses
  exact ⟨_, gots, reader', h4, h6, h7, h8⟩

/-- Of two frames with eight samples each, three samples are read; then a block, which is the second one; then there
is nothing left. -/
example (got₁ got₂ got₃ : Got)
    (h : ShowsAll [exampleEncoded, exampleEncoded] [.samples 3, .blocks [.empty], .samples 1] [got₁, got₂, got₃]) :
    got₁ = .samples [yields 5, yields 3, yields 7] ∧
    (∃ b, got₂ = .blocks [.ok (some b)] ∧ b.Holds exampleFrame.header.time exampleChannels) ∧
    got₃ = .samples [.ok none] := by
  obtain ⟨h1, h2, h3, -⟩ := h
  have e1 : framesLeft [exampleEncoded, exampleEncoded] (.samples 3) = [exampleEncoded] := by rfl
  rw [e1] at h2 h3
  refine ⟨?_, ?_, ?_⟩
  · cases got₁ with
    | samples xs => exact congrArg Got.samples h1
    | blocks xs => exact h1.elim
  · cases got₂ with
    | samples xs => exact h2.elim
    | blocks xs =>
      obtain ⟨blocks, h4, h5⟩ := h2
      cases h5 with
      | cons h5 h6 =>
        cases h6
        exact ⟨_, congrArg Got.blocks h4, h5⟩
  · cases got₃ with
    | samples xs => exact congrArg Got.samples h3
    | blocks xs => exact h3.elim

/-- A reader with these two frames, and three samples of the first block. -/
example : ∃ (reader : FlacReader BufferedReader) (r r' : BufferedReader) (b : Block) (buffer : VecI32),
    reader.input = .full r ∧ r.Remaining (Encoded.stream [exampleEncoded, exampleEncoded]) none ∧
    ReadsBlocks r .empty ([] ++ [b]) r' buffer ∧ 3 ≤ b.duration * b.channels ∧
    r'.Remaining (Encoded.stream [exampleEncoded]) none := by
  have hr := bytewise_remaining (Encoded.stream [exampleEncoded, exampleEncoded])
  obtain ⟨b, r', h1, h2, h3⟩ := C23_lossless exampleEncoded.encodes .empty
    (show BufferedReader.Remaining _ (exampleEncoded.frame.bytes exampleEncoded.bps ++
      Encoded.stream [exampleEncoded]) none from hr)
  refine ⟨⟨exampleInfo, none, .full _⟩, _, r', b, _, rfl, hr, .cons h1 .nil, ?_, h2⟩
  have h4 : b.duration = 4 := (h3.duration _ (List.mem_cons_self)).symm
  have h5 : b.channels = 2 := h3.count
  rw [h4, h5]
  decide

end Claxon.Props
