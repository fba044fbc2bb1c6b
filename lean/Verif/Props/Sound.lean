import Verif.Props.Trace
import Verif.Props.Unchecked
import Verif.Props.Width

/-! # C83: no undefined behaviour, and no panic but one

Whatever the data are, also with the very long runs of zeros that make a checked build panic (C27): the only panic of
the decoder is that arithmetic overflow. It never indexes out of bounds, never runs into undefined behaviour, and always
comes to an end. -/

namespace Claxon.Props

open Claxon Spec

variable {σ : Type}

theorem mild_overflows : Mild (fun {_} x => ReturnsOrOverflows x) where
  ok a := .inl (.inl ⟨a, rfl⟩)
  err e := .inl (.inr ⟨e, rfl⟩)
  cast f h := by
    rcases h with (⟨a, h⟩ | ⟨e, h⟩) | h
    · cases h
    · cases h; exact .inl (.inr ⟨e, rfl⟩)
    · cases h; exact .inr rfl

/-- **C83.** In a build with overflow checks, with any reader that does not panic itself, any sequence of operations
(reading bytes, skipping, reading frames and metadata blocks), also after errors and after a panic: every operation
returns, or panics with an arithmetic overflow. -/
theorem C83_operations [ReadBytes σ] {P : σ → Prop} (hP : NeverPanicsAll P) (ops : List Op)
    (hops : ∀ op ∈ ops, op.WellTyped) (s : σ) (hs : P s) :
    ∀ result ∈ runAll ops s, ReturnsOrOverflows result := by
  induction ops generalizing s with
  | nil => simp [runAll]
  | cons op ops ih =>
    have hop : ReturnsOrOverflows (op.run s).1 ∧ P (op.run s).2 :=
      operation_mild mild_overflows hP (hops op List.mem_cons_self) (fun buffer _ s hs =>
        (frame_trace_overflows hP.toNeverPanics buffer s hs).imp_left fun h => h.imp_right fun h => h.1) s hs
    intro result hm
    rw [runAll, List.mem_cons] at hm
    rcases hm with rfl | hm
    · exact hop.1
    · exact ih (fun op h => hops op (List.mem_cons_of_mem _ h)) _ hop.2 _ hm

/-- **C83.** Only reading a frame can panic; and if it does, then `2 ^ 32 - 1` zero bits in a row have been read. -/
theorem C83_overflow [ReadBytes σ] {P : σ → Prop} (hP : NeverPanicsAll P) {op : Op} (hw : op.WellTyped) {s : σ}
    (hs : P s) : Returns (op.run s).1 ∨
      ((∃ buffer, op = .frame buffer) ∧ (op.run s).1 = .error (.panic .overflow) ∧
        ∃ bytes s', Yields s bytes s' ∧ LongZeros (bytesToBits bytes)) := by
  by_cases h : ∃ buffer, op = .frame buffer
  · obtain ⟨buffer, rfl⟩ := h
    have h := (frame_trace_overflows hP.toNeverPanics buffer s hs).1
    rw [show (Op.frame buffer).run s = (readNextOrEof buffer >>= fun b => pure (Out.block b)) s from rfl,
      Dec.bind_def]
    generalize readNextOrEof buffer s = x at h ⊢
    rcases x with ⟨f | a, s'⟩
    · rcases h with (⟨_, h⟩ | ⟨e, h⟩) | ⟨h, h'⟩
      · cases h
      · cases h; exact .inl (.inr ⟨e, rfl⟩)
      · cases h; exact .inr ⟨⟨_, rfl⟩, rfl, h'⟩
    · exact .inl (.inl ⟨_, rfl⟩)
  · exact .inl (operation_returns hP hw (fun buffer hb => h ⟨buffer, hb⟩) s hs).1

/-- **C83.** The sample iterator, called any number of times, also after errors and after a panic: every call returns,
or panics with an arithmetic overflow. -/
theorem C83_samples [ReadBytes σ] {P : σ → Prop} (hP : NeverPanics P) (n : Nat) (s : σ) (hs : P s) :
    ∀ x ∈ calls FlacSamples.next n (FlacSamples.new s), (∃ y, x = .ok y) ∨ x = .error (.panic .overflow) := by
  have after : ∀ (buffer : VecI32) (s : σ), P s → ∀ n,
      (∀ it : FlacSamples σ, (it.hasFailed = true ∨ (∃ s', P s' ∧ it = FlacSamples.new s') ∨
        ∃ s' b buffer p, P s' ∧ Block.Shape b buffer ∧ p < b.duration * b.channels ∧ it = FlacSamples.at s' b p) →
        ∀ x ∈ calls FlacSamples.next n it, (∃ y, x = .ok y) ∨ x = .error (.panic .overflow)) →
      ∀ it : FlacSamples σ, it.AtEnd s buffer → ∀ x ∈ calls FlacSamples.next (n + 1) it,
        (∃ y, x = .ok y) ∨ x = .error (.panic .overflow) := by
    intro buffer s hs n ih it hit x hx
    obtain ⟨h1, h2⟩ := frame_trace_overflows hP buffer s hs
    rw [calls, FlacSamples.next_atEnd hit] at hx
    rcases hf : readNextOrEof buffer s with ⟨e | _ | b, s'⟩
    · rw [hf] at h1 h2
      rcases h1 with (⟨_, h1⟩ | ⟨e, h1⟩) | ⟨h1, -⟩
      · cases h1
      · cases h1
        simp only [FlacSamples.afterBlock, hf] at hx
        rcases List.mem_cons.1 hx with rfl | hx
        · exact .inl ⟨_, rfl⟩
        · exact ih _ (.inl rfl) x hx
      · cases h1
        simp only [FlacSamples.afterBlock, hf] at hx
        rcases List.mem_cons.1 hx with rfl | hx
        · exact .inr rfl
        · exact ih _ (.inr (.inl ⟨s', h2, rfl⟩)) x hx
    · rw [hf] at h2
      simp only [FlacSamples.afterBlock, hf] at hx
      rcases List.mem_cons.1 hx with rfl | hx
      · exact .inl ⟨_, rfl⟩
      · exact ih _ (.inr (.inl ⟨s', h2, rfl⟩)) x hx
    · rw [hf] at h2
      obtain ⟨v, h3, h4⟩ := FlacSamples.next_block hit hf
      rw [← FlacSamples.next_atEnd hit, h4] at hx
      rcases List.mem_cons.1 hx with rfl | hx
      · exact .inl ⟨_, rfl⟩
      · have hshape := post_block buffer _ _ _ hf b rfl
        refine ih _ (.inr (.inr ⟨s', b, buffer, 0, h2, hshape, ?_, rfl⟩)) x hx
        have := hshape.channels; have := hshape.blockSize
        exact Nat.mul_pos (by show 0 < b.blockSize; omega) (by omega)
  have gen : ∀ (n : Nat) (it : FlacSamples σ), (it.hasFailed = true ∨ (∃ s', P s' ∧ it = FlacSamples.new s') ∨
      ∃ s' b buffer p, P s' ∧ Block.Shape b buffer ∧ p < b.duration * b.channels ∧ it = FlacSamples.at s' b p) →
      ∀ x ∈ calls FlacSamples.next n it, (∃ y, x = .ok y) ∨ x = .error (.panic .overflow) := by
    intro n
    induction n with
    | zero => intro it _ x hx; simp [calls] at hx
    | succ n ih =>
      intro it hit
      rcases hit with hf | ⟨s', hs', rfl⟩ | ⟨s', b, buffer, p, hs', hb, hp, rfl⟩
      · intro x hx
        rw [calls, FlacSamples.next_failed hf] at hx
        rcases List.mem_cons.1 hx with rfl | hx
        · exact .inl ⟨_, rfl⟩
        · exact ih it (.inl hf) x hx
      · exact after .empty s' hs' n ih _ (FlacSamples.atEnd_new s')
      · rcases Nat.lt_or_ge (p + 1) (b.duration * b.channels) with hlt | hge
        · obtain ⟨v, h1, h2⟩ := FlacSamples.next_inside hb s' hlt
          intro x hx
          rw [calls, h2] at hx
          rcases List.mem_cons.1 hx with rfl | hx
          · exact .inl ⟨_, rfl⟩
          · exact ih _ (.inr (.inr ⟨s', b, buffer, p + 1, hs', hb, hlt, rfl⟩)) x hx
        · exact after _ s' hs' n ih _ (FlacSamples.atEnd_at hb s' (by omega))
  exact gen n _ (.inr (.inl ⟨s, hs, rfl⟩))

/-- **C83.** In particular with a buffered reader around any source that honours its contract, whatever it delivers,
and however often it fails. -/
theorem C83_source {src : Src} (hc : src.Contract) (ops : List Op) (hops : ∀ op ∈ ops, op.WellTyped) :
    ∀ result ∈ runAll ops (BufferedReader.new src), ReturnsOrOverflows result :=
  C83_operations (buffered_neverPanics src.outcome) ops hops _ (buffered_new hc)

/-- **C83.** And for the samples of a stream that was opened from any such source. -/
theorem C83_session {src : Src} (hc : src.Contract) {fuel : Nat} {o : FlacReaderOptions}
    {reader : FlacReader BufferedReader} {it : FlacSamples BufferedReader}
    (h : FlacReader.newExt fuel src o = .ok reader) (hit : reader.samples = .ok it) (n : Nat) :
    ∀ x ∈ calls FlacSamples.next n it, (∃ y, x = .ok y) ∨ x = .error (.panic .overflow) := by
  have hP := buffered_neverPanics src.outcome
  have h' := safe_openStream hP fuel o _ (buffered_new hc)
  unfold FlacReader.newExt FlacReader.newExtGen at h
  rcases hx : openStream fuel o (BufferedReader.new src) with ⟨f | ⟨info, vc⟩, r⟩
  · rw [hx] at h; cases h
  · rw [hx] at h h'
    cases h
    unfold FlacReader.make FlacReader.samples at hit
    by_cases hm : o.metadataOnly = true
    · simp only [if_pos hm] at hit; cases hit
    · simp only [if_neg hm] at hit
      cases hit
      exact C83_samples hP.toNeverPanics n r h'.2

/-- **C83.** The iterator over the stereo samples of a block, which indexes without checking: it stays within the bounds
for every block that is returned by the decoder, in every build and on every platform. -/
theorem C83_stereo [ReadBytes σ] {buffer : VecI32} {s s' : σ} {b : Block}
    (h : readNextOrEof buffer s = (.ok (some b), s')) (build : Build) (target : Target)
    (hw : 32 ≤ target.usizeBits) :
    (b.channels ≠ 2 ∧ @Block.stereoSamples build target b = .error (.panic .explicit)) ∨
    ∃ it, @Block.stereoSamples build target b = .ok it ∧
      ∀ n, ∀ x ∈ calls (@StereoSamples.next build target) n it, ∃ y, x = .ok y := by
  obtain ⟨h1, h2⟩ := C68_stereo h build target hw
  by_cases hch : b.channels = 2
  · right
    obtain ⟨left, right, it, -, -, hit, -⟩ := C29_stereo h hch 0
    refine ⟨it, h1.trans hit, fun n x hx => ?_⟩
    rw [h2 it hit n] at hx
    obtain ⟨left, right, it', -, -, hit', hcalls⟩ := C29_stereo h hch n
    rw [hit] at hit'
    cases hit'
    have hx := calls_mono (k := b.duration + n) (by omega) hx
    rw [hcalls] at hx
    rcases List.mem_append.1 hx with hx | hx
    · obtain ⟨i, hi, rfl⟩ := List.mem_iff_getElem.1 hx
      rw [List.getElem_zipWith]
      exact ⟨_, rfl⟩
    · rw [(List.mem_replicate.1 hx).2]
      exact ⟨_, rfl⟩
  · exact .inl ⟨hch, h1.trans (C29_notStereo hch)⟩

theorem overflow_example {m : Nat} (hm : 2 ^ 29 ≤ m) :
    (.error (.panic .overflow)) ∈ runAll [.frame .empty, .readU8] (BufferedReader.new (bytewise (hugeFrame m))) := by
  generalize hb : BufferedReader.new (bytewise (hugeFrame m)) = r
  have hr : r.Remaining (hugeFrame m) none := by rw [← hb]; exact bytewise_remaining _
  rw [runAll, show (Op.frame .empty).run r = (readNextOrEof .empty >>= fun b => pure (Out.block b)) r from rfl,
    Dec.bind_def]
  have h : (readNextOrEof .empty r).1 = .error (.panic .overflow) := by
    rw [Sim.result ((simBufferedRd none).readNextOrEof .empty) hr]
    exact hugeFrame_panics hm _ _
  generalize readNextOrEof .empty r = x at h ⊢
  rcases x with ⟨res, s⟩
  simp only at h
  subst h
  exact List.mem_cons_self

/-- A stream on which there is a panic; the reader can be used after it. -/
example : ∃ m, (.error (.panic .overflow)) ∈
    runAll [.frame .empty, .readU8] (BufferedReader.new (bytewise (hugeFrame m))) :=
  ⟨2 ^ 29, overflow_example (Nat.le_refl _)⟩

/-- The theorems of C83 for a source that never ends and fails again and again. -/
example (n : Nat) :
    (∀ result ∈ runAll [.readInto 7, .skip 3, .metadataBlockWithHeader, .frame .empty]
      (BufferedReader.new endlessSource), ReturnsOrOverflows result) ∧
    (∀ x ∈ calls FlacSamples.next n (FlacSamples.new (BufferedReader.new endlessSource)),
      (∃ y, x = .ok y) ∨ x = .error (.panic .overflow)) ∧
    Returns ((Op.skip 5).run (BufferedReader.new endlessSource)).1 := by
  have hc := endlessSource_mild.1
  have hP := buffered_neverPanics endlessSource.outcome
  refine ⟨C83_source hc _ (by simp [Op.WellTyped]), C83_samples hP.toNeverPanics n _ (buffered_new hc), ?_⟩
  rcases C83_overflow hP (op := .skip 5) (by simp [Op.WellTyped]) (buffered_new hc) with h | ⟨⟨_, h⟩, _⟩
  · exact h
  · cases h

/-- For the samples of a stream that is opened. -/
example (n : Nat) : ∃ (reader : FlacReader BufferedReader) (it : FlacSamples BufferedReader),
    FlacReader.newExt 3 (bytewise (streamMarker ++
      metadataBytes (infoBlock false :: [paddingBlock false, commentBlock true]) ++ exampleFrame.bytes 16)) .default =
        .ok reader ∧ reader.samples = .ok it ∧
    ∀ x ∈ calls FlacSamples.next n it, (∃ y, x = .ok y) ∨ x = .error (.panic .overflow) := by
  obtain ⟨reader, h1, -⟩ := C36_open exampleMetadata (fuel := 3) (by decide) (bytewise_delivers _)
  obtain ⟨frames, -, h5, -⟩ := C46_ok h1 rfl
  exact ⟨reader, _, h1, h5, C83_session (bytewise_contract _) h1 h5 n⟩

/-- And for the stereo samples of a block that is read. -/
example : ∃ (b : Block) (r' : BufferedReader) (it : StereoSamples),
    readNextOrEof .empty (BufferedReader.new (bytewise (exampleFrame.bytes 16))) = (.ok (some b), r') ∧
    @Block.stereoSamples uncheckedBuild target32 b = .ok it ∧
    ∀ n, ∀ x ∈ calls (@StereoSamples.next uncheckedBuild target32) n it, ∃ y, x = .ok y := by
  obtain ⟨b, r', h1, h2, h3⟩ := example_read
  rcases C83_stereo h1 uncheckedBuild target32 (by decide) with ⟨h, _⟩ | ⟨it, h4, h5⟩
  · exact absurd h2 h
  · exact ⟨b, r', it, h1, h4, h5⟩

end Claxon.Props
