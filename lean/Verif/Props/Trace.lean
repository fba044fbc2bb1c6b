import Verif.Proof.Safe
import Verif.Proof.SamplesApi
import Verif.Props.Lib

/-! # C58: decoding with any reader

`FrameReader::new` takes anything that implements `ReadBytes`, not only a `BufferedReader`; and a
`BufferedReader` can be used with a source that never ends, and be used again after an I/O error. -/

namespace Claxon.Props

open Claxon Spec

variable {σ : Type}

/-- **C58.** Whatever the reader is: reading a frame reads bytes one by one, never looking ahead, and does one of
three things. It returns `None`, if the reader reports the end of the file instead of one of the first two
bytes. It fails with the error of the reader, if the reader fails, and does not touch the reader after that. Or
its result is determined by the bytes it has read: it is the one for any other stream that begins with these
bytes. -/
theorem C58_any_reader [ReadBytes σ] (buffer : VecI32) (s : σ) :
    ∃ bytes s₁, Yields s bytes s₁ ∧
      ((bytes.length < 2 ∧ ∃ s₂, ReadBytes.readU8OrEof s₁ = (.ok none, s₂) ∧
          readNextOrEof buffer s = (.ok none, s₂)) ∨
        (∃ f s₂, (ReadBytes.readU8 s₁ = (.error f, s₂) ∨ ReadBytes.readU8OrEof s₁ = (.error f, s₂)) ∧
          readNextOrEof buffer s = (.error f, s₂)) ∨
        ∃ result, readNextOrEof buffer s = (result, s₁) ∧
          ∀ (r : BufferedReader) (more : List U8) (fault : Option Nat),
            r.Remaining (bytes ++ more) fault →
            (readNextOrEof buffer r).1 = result ∧
            (IsIoError result = false → (readNextOrEof buffer r).2.Remaining more fault)) := by
  obtain ⟨bytes, s₁, hy, h⟩ := frame_trace buffer s
  refine ⟨bytes, s₁, hy, ?_⟩
  rcases h with h | h | ⟨result, h1, h2⟩
  · exact .inl h
  · exact .inr (.inl h)
  · refine .inr (.inr ⟨result, h1, fun r more fault hr => ?_⟩)
    have hsim := (simBufferedRd fault).readNextOrEof buffer
    have h3 := Sim.result hsim hr
    rw [h2] at h3
    refine ⟨h3, fun hio => ?_⟩
    obtain ⟨rest, -, h4, h5⟩ := Sim.remaining hsim ((simSuffix _ fault).rd.readNextOrEof buffer) hr
      (by rw [h3]; exact hio)
    rw [h2] at h4
    simp only [Prod.mk.injEq, Flat.mk.injEq, and_true] at h4
    rw [h4.2]
    exact h5

theorem frame_trace_overflows [ReadBytes σ] {P : σ → Prop} (hP : NeverPanics P) (buffer : VecI32) (s : σ)
    (hs : P s) :
    (Returns (readNextOrEof buffer s).1 ∨ (readNextOrEof buffer s).1 = .error (.panic .overflow) ∧
      ∃ bytes s₁, Yields s bytes s₁ ∧ LongZeros (bytesToBits bytes)) ∧ P (readNextOrEof buffer s).2 := by
  have hyields : ∀ {s s' : σ} {bytes : List U8}, Yields s bytes s' → P s → P s' := by
    intro s s' bytes hy
    induction hy with
    | nil s => exact id
    | byte h _ ih => exact fun h' => ih (by have := (hP.readU8 _ h').2; rwa [h] at this)
    | byteOrEof h _ ih => exact fun h' => ih (by have := (hP.readU8OrEof _ h').2; rwa [h] at this)
  obtain ⟨bytes, s₁, hy, h⟩ := frame_trace buffer s
  have hs₁ := hyields hy hs
  rcases h with ⟨-, s₂, h1, h2⟩ | ⟨f, s₂, h1 | h1, h2⟩ | ⟨result, h1, h2⟩
  · rw [h2]
    have := (hP.readU8OrEof _ hs₁).2
    rw [h1] at this
    exact ⟨.inl (.inl ⟨_, rfl⟩), this⟩
  · rw [h2]
    have := hP.readU8 _ hs₁
    rw [h1] at this
    refine ⟨?_, this.2⟩
    rcases this.1 with ⟨_, h⟩ | ⟨e, h⟩
    · cases h
    · cases h; exact .inl (.inr ⟨e, rfl⟩)
  · rw [h2]
    have := hP.readU8OrEof _ hs₁
    rw [h1] at this
    refine ⟨?_, this.2⟩
    rcases this.1 with ⟨_, h⟩ | ⟨e, h⟩
    · cases h
    · cases h; exact .inl (.inr ⟨e, rfl⟩)
  · rw [h1]
    refine ⟨?_, hs₁⟩
    have h3 := frame_overflows buffer ⟨bytes ++ [], none⟩
    rw [h2] at h3
    refine h3.imp_right fun h => ⟨h.1, bytes, s₁, hy, ?_⟩
    have := h.2
    rwa [List.append_nil] at this

theorem frame_trace_returns [ReadBytes σ] {P : σ → Prop} (hP : NeverPanics P) (buffer : VecI32) (s : σ)
    (hs : P s) (hz : ∀ bytes s₁, Yields s bytes s₁ → ¬ LongZeros (bytesToBits bytes)) :
    Returns (readNextOrEof buffer s).1 ∧ P (readNextOrEof buffer s).2 := by
  have h := frame_trace_overflows hP buffer s hs
  refine ⟨h.1.resolve_right ?_, h.2⟩
  rintro ⟨-, bytes, s₁, hy, hl⟩
  exact hz bytes s₁ hy hl

/-- **C58.** With any reader that does not panic itself, and does not deliver `2 ^ 32 - 1` zero bits in a row, no
sequence of frame reads panics, whatever the buffers, also when going on after errors and after the end of the
file. -/
theorem C58_returns [ReadBytes σ] {P : σ → Prop} (hP : NeverPanics P)
    (hz : ∀ s bytes s', P s → Yields s bytes s' → ¬ LongZeros (bytesToBits bytes))
    (buffers : List VecI32) (s : σ) (hs : P s) : ∀ result ∈ readFrames buffers s, Returns result := by
  induction buffers generalizing s with
  | nil => simp [readFrames]
  | cons buffer buffers ih =>
    obtain ⟨h1, h2⟩ := frame_trace_returns hP buffer s hs fun bytes s₁ hy => hz s bytes s₁ hs hy
    intro result hm
    rw [readFrames, List.mem_cons] at hm
    rcases hm with rfl | hm
    · exact h1
    · exact ih _ h2 _ hm

/-- One operation. -/
theorem operation_mild [ReadBytes σ] {P : σ → Prop} {R : ∀ {α : Type}, Except Fail α → Prop} (hR : Mild R)
    (hP : NeverPanicsAll P) {op : Op} (hw : op.WellTyped)
    (hframe : ∀ buffer, op = .frame buffer → ∀ s, P s →
      R (readNextOrEof buffer s).1 ∧ P (readNextOrEof buffer s).2) (s : σ) (hs : P s) :
    R (op.run s).1 ∧ P (op.run s).2 := by
  have lift : ∀ {α : Type} {m : Dec σ α} (f : α → Out), Safe P R m →
      Safe P R (do let a ← m; Pure.pure (f a)) :=
    fun f h => h.bind hR fun a => .pure hR (f a)
  cases op with
  | readU8 => exact lift .byte (safe_readU8 hR hP) s hs
  | readU8OrEof => exact lift .byteOrEof (safe_readU8OrEof hR hP) s hs
  | readBeU16 => exact lift .u16 (safe_readBeU16 hR hP) s hs
  | readBeU16OrEof => exact lift .u16OrEof (safe_readBeU16OrEof hR hP) s hs
  | readBeU24 => exact lift .u32 (safe_readBeU24 hR hP) s hs
  | readBeU32 => exact lift .u32 (safe_readBeU32 hR hP) s hs
  | readLeU32 => exact lift .u32 (safe_readLeU32 hR hP) s hs
  | readInto n => exact lift .bytes (safe_readInto hR hP hw) s hs
  | skip n => exact lift (fun _ => .done) (safe_skip hR hP hw) s hs
  | frame buffer => exact lift (m := readNextOrEof buffer) .block (hframe buffer rfl) s hs
  | metadataBlock t n => exact lift .metadata (safe_metadataBlock hR hP t hw) s hs
  | metadataBlockWithHeader => exact lift .metadata (safe_withHeader hR hP) s hs

theorem operation_safe [ReadBytes σ] {P : σ → Prop} (hP : NeverPanicsAll P) {op : Op} (hw : op.WellTyped)
    (hframe : ∀ buffer, op = .frame buffer → ∀ s, P s →
      Returns (readNextOrEof buffer s).1 ∧ P (readNextOrEof buffer s).2) (s : σ) (hs : P s) :
    Returns (op.run s).1 ∧ P (op.run s).2 :=
  operation_mild mild_returns hP hw hframe s hs

/-- One operation that does not read a frame. -/
theorem operation_returns [ReadBytes σ] {P : σ → Prop} (hP : NeverPanicsAll P) {op : Op} (hw : op.WellTyped)
    (hf : ∀ buffer, op ≠ .frame buffer) (s : σ) (hs : P s) : Returns (op.run s).1 ∧ P (op.run s).2 :=
  operation_safe hP hw (fun buffer h => absurd h (hf buffer)) s hs

/-- **C58.** The same for any sequence of operations on the reader: reading bytes, skipping, frames, metadata
blocks. -/
theorem C58_operations [ReadBytes σ] {P : σ → Prop} (hP : NeverPanicsAll P)
    (hz : ∀ s bytes s', P s → Yields s bytes s' → ¬ LongZeros (bytesToBits bytes))
    (ops : List Op) (hops : ∀ op ∈ ops, op.WellTyped) (s : σ) (hs : P s) :
    ∀ result ∈ runAll ops s, Returns result := by
  induction ops generalizing s with
  | nil => simp [runAll]
  | cons op ops ih =>
    have hop : Returns (op.run s).1 ∧ P (op.run s).2 :=
      operation_safe hP (hops op List.mem_cons_self) (fun buffer _ s hs =>
        frame_trace_returns hP.toNeverPanics buffer s hs fun bytes s₁ hy => hz s bytes s₁ hs hy) s hs
    intro result hm
    rw [runAll, List.mem_cons] at hm
    rcases hm with rfl | hm
    · exact hop.1
    · exact ih (fun op h => hops op (List.mem_cons_of_mem _ h)) _ hop.2 _ hm

/-- **C58.** Opening a stream does not panic. With an endless source it need not end (`diverged`: there have been
more than `fuel` metadata blocks). -/
theorem C58_open [ReadBytes σ] {P : σ → Prop} (hP : NeverPanicsAll P) (fuel : Nat) (o : FlacReaderOptions)
    (s : σ) (hs : P s) :
    Returns (FlacReader.newExtGen fuel s o) ∨ FlacReader.newExtGen fuel s o = .error .diverged := by
  have h := safe_openStream hP fuel o s hs
  unfold FlacReader.newExtGen
  rcases hx : openStream fuel o s with ⟨f | ⟨info, vc⟩, s'⟩
  · rw [hx] at h
    exact mild_calm.cast f h.1
  · exact .inl (.inl ⟨_, rfl⟩)

/-- **C58.** The metadata iterator does not panic, however often one calls. -/
theorem C58_metadata [ReadBytes σ] {P : σ → Prop} (hP : NeverPanicsAll P) (n : Nat) (s : σ) (hs : P s) :
    ∀ x ∈ calls MetadataBlockReader.next n (MetadataBlockReader.new s), ∃ y, x = .ok y := by
  have gen : ∀ (n : Nat) (r : MetadataBlockReader σ), P r.input →
      ∀ x ∈ calls MetadataBlockReader.next n r, ∃ y, x = .ok y := by
    intro n
    induction n with
    | zero => intro r _ x hx; simp [calls] at hx
    | succ n ih =>
      intro r hr x hx
      have h := safe_next mild_returns hP r hr
      rw [calls] at hx
      rcases List.mem_cons.1 hx with rfl | hx
      · rcases h.1 with h1 | ⟨e, h1⟩
        · exact h1
        · exact (next_not_err r e (MetadataBlockReader.next r).2 (Prod.ext h1 rfl)).elim
      · exact ih _ h.2 x hx
  exact gen n _ hs

/-- **C58.** The sample iterator does not panic, however often one calls. -/
theorem C58_samples [ReadBytes σ] {P : σ → Prop} (hP : NeverPanics P)
    (hz : ∀ s bytes s', P s → Yields s bytes s' → ¬ LongZeros (bytesToBits bytes)) (n : Nat) (s : σ)
    (hs : P s) : ∀ x ∈ calls FlacSamples.next n (FlacSamples.new s), ∃ y, x = .ok y := by
  have after : ∀ (buffer : VecI32) (s : σ), P s → ∀ n,
      (∀ it : FlacSamples σ, (it.hasFailed = true ∨ (∃ s', P s' ∧ it = FlacSamples.new s') ∨
        ∃ s' b buffer p, P s' ∧ Block.Shape b buffer ∧ p < b.duration * b.channels ∧ it = FlacSamples.at s' b p) →
        ∀ x ∈ calls FlacSamples.next n it, ∃ y, x = .ok y) →
      ∀ it : FlacSamples σ, it.AtEnd s buffer → ∀ x ∈ calls FlacSamples.next (n + 1) it, ∃ y, x = .ok y := by
    intro buffer s hs n ih it hit x hx
    obtain ⟨h1, h2⟩ := frame_trace_returns hP buffer s hs fun bytes s₁ hy => hz s bytes s₁ hs hy
    rw [calls, FlacSamples.next_atEnd hit] at hx
    rcases hf : readNextOrEof buffer s with ⟨e | _ | b, s'⟩
    · rw [hf] at h1
      rcases h1 with ⟨_, h1⟩ | ⟨e, h1⟩
      · cases h1
      · cases h1
        simp only [FlacSamples.afterBlock, hf] at hx
        rcases List.mem_cons.1 hx with rfl | hx
        · exact ⟨_, rfl⟩
        · exact ih _ (.inl rfl) x hx
    · rw [hf] at h2
      simp only [FlacSamples.afterBlock, hf] at hx
      rcases List.mem_cons.1 hx with rfl | hx
      · exact ⟨_, rfl⟩
      · exact ih _ (.inr (.inl ⟨s', h2, rfl⟩)) x hx
    · rw [hf] at h2
      obtain ⟨v, h3, h4⟩ := FlacSamples.next_block hit hf
      rw [← FlacSamples.next_atEnd hit, h4] at hx
      rcases List.mem_cons.1 hx with rfl | hx
      · exact ⟨_, rfl⟩
      · have hshape := post_block buffer _ _ _ hf b rfl
        refine ih _ (.inr (.inr ⟨s', b, buffer, 0, h2, hshape, ?_, rfl⟩)) x hx
        have := hshape.channels; have := hshape.blockSize
        exact Nat.mul_pos (by show 0 < b.blockSize; omega) (by omega)
  have gen : ∀ (n : Nat) (it : FlacSamples σ), (it.hasFailed = true ∨ (∃ s', P s' ∧ it = FlacSamples.new s') ∨
      ∃ s' b buffer p, P s' ∧ Block.Shape b buffer ∧ p < b.duration * b.channels ∧ it = FlacSamples.at s' b p) →
      ∀ x ∈ calls FlacSamples.next n it, ∃ y, x = .ok y := by
    intro n
    induction n with
    | zero => intro it _ x hx; simp [calls] at hx
    | succ n ih =>
      intro it hit
      rcases hit with hf | ⟨s', hs', rfl⟩ | ⟨s', b, buffer, p, hs', hb, hp, rfl⟩
      · intro x hx
        rw [calls, FlacSamples.next_failed hf] at hx
        rcases List.mem_cons.1 hx with rfl | hx
        · exact ⟨_, rfl⟩
        · exact ih it (.inl hf) x hx
      · exact after .empty s' hs' n ih _ (FlacSamples.atEnd_new s')
      · rcases Nat.lt_or_ge (p + 1) (b.duration * b.channels) with hlt | hge
        · obtain ⟨v, h1, h2⟩ := FlacSamples.next_inside hb s' hlt
          intro x hx
          rw [calls, h2] at hx
          rcases List.mem_cons.1 hx with rfl | hx
          · exact ⟨_, rfl⟩
          · exact ih _ (.inr (.inr ⟨s', b, buffer, p + 1, hs', hb, hlt, rfl⟩)) x hx
        · exact after _ s' hs' n ih _ (FlacSamples.atEnd_at hb s' (by omega))
  exact gen n _ (.inr (.inl ⟨s, hs, rfl⟩))

/-- The buffered reader does not panic, as long as the source honours its contract. -/
theorem buffered_neverPanics (outcome : Nat → ReadOutcome) :
    NeverPanicsAll (fun r : BufferedReader => r.Good ∧ r.inner.outcome = outcome) := by
  have benign : ∀ {α : Type} {x : Except Fail α}, Benign x → Returns x := by
    intro α x h
    rcases x with (e | _ | _ | _) | a
    · exact .inr ⟨e, rfl⟩
    · exact h.elim
    · exact h.elim
    · exact h.elim
    · exact .inl ⟨a, rfl⟩
  refine ⟨⟨fun r h => ?_, fun r h => ?_⟩, fun n _ r h => ?_, fun n _ r h => ?_, fun n m r h => ?_⟩
  · exact ⟨benign (BufferedReader.readU8_inBounds h.1.toInBounds).1,
      (BufferedReader.flows_readU8 h.1).good, (BufferedReader.flows_readU8 h.1).src.trans h.2⟩
  · exact ⟨benign (BufferedReader.readU8OrEof_inBounds h.1.toInBounds).1,
      (BufferedReader.flows_readU8OrEof h.1).good, (BufferedReader.flows_readU8OrEof h.1).src.trans h.2⟩
  · have h1 : BufferedReader.FlowsTo r _ (BufferedReader.readInto n r) :=
      BufferedReader.flows_readIntoLoop _ n r h.1
    exact ⟨benign (BufferedReader.readInto_inBounds h.1.toInBounds n).1, h1.good, h1.src.trans h.2⟩
  · have h1 : BufferedReader.FlowsTo r _ (BufferedReader.skip n r) :=
      BufferedReader.flows_skipLoop _ n r h.1
    exact ⟨benign (BufferedReader.skip_inBounds h.1.toInBounds n).1, h1.good, h1.src.trans h.2⟩
  · exact ⟨.inl ⟨(), rfl⟩, h⟩

theorem buffered_zeros {outcome : Nat → ReadOutcome} (hz : ZerosBelow outcome (2 ^ 29 - 1 - 2048)) :
    ∀ (r : BufferedReader) (bytes : List U8) (r' : BufferedReader), r.Good ∧ r.inner.outcome = outcome →
      Yields r bytes r' → ¬ LongZeros (bytesToBits bytes) :=
  fun _ _ _ h hy => BufferedReader.yields_zeros hy h.1 (by rw [h.2]; exact hz)

theorem buffered_new {src : Src} (hc : src.Contract) :
    (BufferedReader.new src).Good ∧ (BufferedReader.new src).inner.outcome = src.outcome :=
  ⟨⟨BufferedReader.inBounds_new fun k n w h => (hc k n w h).2, hc⟩, rfl⟩

/-- **C58.** With a buffered reader around any source, which may deliver data without end, may fail any number of
times and go on after that, no sequence of operations panics, also when going on after I/O errors; unless there
are about `2 ^ 29` zero bytes in a row in what the source delivers. (After an I/O error, the buffered reader may
hand out the 2048 bytes in its buffer a second time, see C04; this is why the limit is smaller.) -/
theorem C58_source {src : Src} (hc : src.Contract) (hz : ZerosBelow src.outcome (2 ^ 29 - 1 - 2048))
    (ops : List Op) (hops : ∀ op ∈ ops, op.WellTyped) :
    ∀ result ∈ runAll ops (BufferedReader.new src), Returns result :=
  C58_operations (buffered_neverPanics src.outcome) (buffered_zeros hz) ops hops _ (buffered_new hc)

/-- **C58.** Neither does opening a stream from any such source, nor the iterator over its samples. -/
theorem C58_session {src : Src} (hc : src.Contract) (fuel : Nat) (o : FlacReaderOptions) :
    (Returns (FlacReader.newExt fuel src o) ∨ FlacReader.newExt fuel src o = .error .diverged) ∧
    ∀ reader samples, FlacReader.newExt fuel src o = .ok reader → reader.samples = .ok samples →
      ZerosBelow src.outcome (2 ^ 29 - 1 - 2048) →
      ∀ n, ∀ x ∈ calls FlacSamples.next n samples, ∃ y, x = .ok y := by
  have hP := buffered_neverPanics src.outcome
  refine ⟨C58_open hP fuel o _ (buffered_new hc), fun reader samples h1 h2 hz n => ?_⟩
  have h := safe_openStream hP fuel o _ (buffered_new hc)
  unfold FlacReader.newExt FlacReader.newExtGen at h1
  rcases hx : openStream fuel o (BufferedReader.new src) with ⟨f | ⟨info, vc⟩, r⟩
  · rw [hx] at h1; cases h1
  · rw [hx] at h1 h
    cases h1
    unfold FlacReader.make FlacReader.samples at h2
    by_cases hm : o.metadataOnly = true
    · simp only [if_pos hm] at h2; cases h2
    · simp only [if_neg hm] at h2
      cases h2
      exact C58_samples hP.toNeverPanics (buffered_zeros hz) n r h.2

/-- A source that never ends, and fails in every third call. -/
def endlessSource : Src where
  outcome := fun k => if k % 3 = 1 then .err 5 [] else .ok 4 [0xff, 0xf8, 0x00, 0x13]
  calls := 0

/-- It meets the hypotheses of `C58_source`. -/
theorem endlessSource_mild : endlessSource.Contract ∧ ZerosBelow endlessSource.outcome (2 ^ 29 - 1 - 2048) := by
  constructor
  · intro k n written h
    simp only [endlessSource] at h
    split at h
    · simp at h
    · simp only [ReadOutcome.ok.injEq] at h
      rw [← h.1, ← h.2]; decide
  · intro calls pre n post h
    have key : ∀ calls, ∃ m, delivered endlessSource.outcome calls =
        (List.replicate m [0xff#8, 0xf8#8, 0x00#8, 0x13#8]).flatten := by
      intro calls
      induction calls with
      | zero => exact ⟨0, rfl⟩
      | succ k ih =>
        obtain ⟨m, hm⟩ := ih
        by_cases h3 : k % 3 = 1
        · refine ⟨m, ?_⟩
          rw [delivered, hm]
          simp only [endlessSource, if_pos h3, List.append_nil]
        · refine ⟨m + 1, ?_⟩
          rw [delivered, hm]
          simp only [endlessSource, if_neg h3]
          rw [List.replicate_succ', List.flatten_append]
          rfl
    obtain ⟨m, hm⟩ := key calls
    rw [hm] at h
    refine Nat.lt_of_lt_of_le (m := 4) ?_ (by decide)
    by_contra hn
    -- Of two adjacent bytes, one is not zero.
    have two : ∀ i, i + 1 < 4 * m → ¬ ((List.replicate m [0xff#8, 0xf8#8, 0x00#8, 0x13#8]).flatten[i]? = some 0#8 ∧
        (List.replicate m [0xff#8, 0xf8#8, 0x00#8, 0x13#8]).flatten[i + 1]? = some 0#8) := by
      intro i hi ⟨h1, h2⟩
      clear h hm key
      induction m generalizing i with
      | zero => omega
      | succ m ih =>
        rw [List.replicate_succ, List.flatten_cons] at h1 h2
        match i with
        | 0 => simp at h1
        | 1 => simp at h1
        | 2 => simp at h2
        | 3 => simp at h1
        | i + 4 =>
          exact ih i (by omega) (by simpa using h1) (by simpa using h2)
    have hlen := congrArg List.length h
    simp at hlen
    refine two pre.length (by omega) ⟨?_, ?_⟩
    · rw [h, List.getElem?_append_right (Nat.le_refl _), Nat.sub_self,
        List.getElem?_append_left (by rw [List.length_replicate]; omega), List.getElem?_replicate,
        if_pos (by omega)]
    · rw [h, List.getElem?_append_right (by omega), Nat.add_sub_cancel_left,
        List.getElem?_append_left (by rw [List.length_replicate]; omega), List.getElem?_replicate,
        if_pos (by omega)]

/-- It can be read from, before and after a failure. -/
example : runAll [.frame .empty, .frame .empty, .readBeU32, .frame .empty] (BufferedReader.new endlessSource) =
    [.error (.err (.formatError "invalid frame header, encountered reserved value")),
      .error (.err (.ioError (.inner 5))), .ok (.u32 0xfff80013),
      .error (.err (.formatError "invalid frame header, encountered reserved value"))] := by
  decide +kernel

theorem bytewise_contract (bytes : List U8) : (bytewise bytes).Contract := by
  intro k n written h
  simp only [bytewise] at h
  split at h <;> cases h <;> exact ⟨Nat.le_refl _, by decide⟩

/-- The theorems of C58 for this source: whatever is asked for, and however often. -/
example (buffers : List VecI32) (n fuel : Nat) (o : FlacReaderOptions) :
    (∀ result ∈ readFrames buffers (BufferedReader.new endlessSource), Returns result) ∧
    (∀ result ∈ runAll [.readInto 7, .skip 3, .metadataBlockWithHeader, .frame .empty]
      (BufferedReader.new endlessSource), Returns result) ∧
    (∀ x ∈ calls MetadataBlockReader.next n (MetadataBlockReader.new (BufferedReader.new endlessSource)),
      ∃ y, x = .ok y) ∧
    (∀ x ∈ calls FlacSamples.next n (FlacSamples.new (BufferedReader.new endlessSource)), ∃ y, x = .ok y) ∧
    (Returns (FlacReader.newExt fuel endlessSource o) ∨ FlacReader.newExt fuel endlessSource o = .error .diverged) := by
  obtain ⟨hc, hz⟩ := endlessSource_mild
  have hP := buffered_neverPanics endlessSource.outcome
  exact ⟨C58_returns hP.toNeverPanics (buffered_zeros hz) _ _ (buffered_new hc),
    C58_operations hP (buffered_zeros hz) _ (by simp [Op.WellTyped]) _ (buffered_new hc), C58_metadata hP n _ (buffered_new hc),
    C58_samples hP.toNeverPanics (buffered_zeros hz) n _ (buffered_new hc), (C58_session hc fuel o).1⟩

end Claxon.Props
