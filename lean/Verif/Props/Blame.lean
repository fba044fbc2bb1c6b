import Verif.Proof.Blame
import Verif.Props.Lazy

/-! # C66: where I/O errors come from

The decoder makes up no I/O errors of its own: damaged data is reported as a format error, and `Error::IoError`
means that reading failed, or that the file ended too early. -/

namespace Claxon.Props

open Claxon Spec

variable {σ : Type} [ReadBytes σ]

/-- **C66.** Whatever the reader is: when an operation (reading bytes, skipping, reading a frame or a metadata block)
fails with an I/O error, then this is the error with which the last call of the reader failed. It is returned
unchanged, the reader is not called after it, and all calls before it succeeded. -/
theorem C66_operation {op : Op} {s s' : σ} {e : IoError} (h : op.run s = (.error (.err (.ioError e)), s')) :
    ReaderFails s (.err (.ioError e)) s' := by
  have ht := tr_op op s
  rw [h] at ht
  rcases ht with ⟨-, h1⟩ | ⟨f, h1, h2⟩
  · exact (h1.out e rfl).elim
  · cases h2; exact h1

/-- **C66.** The same for opening a stream. -/
theorem C66_open {fuel : Nat} {o : FlacReaderOptions} {s : σ} {e : IoError}
    (h : FlacReader.newExtGen fuel s o = .error (.err (.ioError e))) : ∃ s', ReaderFails s (.err (.ioError e)) s' := by
  have ht := tr_openStream fuel o s
  unfold FlacReader.newExtGen at h
  rcases hx : openStream fuel o s with ⟨f | ⟨info, vc⟩, s'⟩
  · rw [hx] at h ht
    cases h
    rcases ht with ⟨-, h1⟩ | ⟨f, h1, h2⟩
    · exact (h1.out e rfl).elim
    · cases h2; exact ⟨s', h1⟩
  · rw [hx] at h; cases h

/-- **C66.** The same for the items of the metadata iterator. -/
theorem C66_metadata {r r' : MetadataBlockReader σ} {e : IoError}
    (h : MetadataBlockReader.next r = (.ok (some (.error (.ioError e))), r')) :
    ReaderFails r.input (.err (.ioError e)) r'.input := by
  have ht := tr_nextFlat r
  unfold nextFlat at ht
  rw [h] at ht
  rcases ht with ⟨-, h1⟩ | ⟨f, h1, h2⟩
  · exact (h1.out e rfl).elim
  · cases h2; exact h1

/-- **C66.** The same for the items of the sample iterator. -/
theorem C66_samples {it it' : FlacSamples σ} {e : IoError}
    (h : FlacSamples.next it = (.ok (some (.error (.ioError e))), it')) :
    ReaderFails it.frameReader (.err (.ioError e)) it'.frameReader := by
  have ht := tr_samples it
  rw [h] at ht
  rcases ht with ⟨-, h1⟩ | ⟨f, h1, h2⟩
  · exact (h1.out e rfl).elim
  · cases h2; exact h1

/-- **C66.** When an operation on a buffered reader fails with an I/O error, after any other operations, then the
source was called in this operation; and in the last call it failed with this error, or it reported the end of the
file and the error is `UnexpectedEof`. -/
theorem C66_source {src : Src} (hc : src.Contract) (ops : List Op) (hops : ∀ op ∈ ops, op.WellTyped) {op : Op}
    {r r' : BufferedReader} {e : IoError} (hr : r = afterOps ops (BufferedReader.new src))
    (h : op.run r = (.error (.err (.ioError e)), r')) :
    r'.inner.outcome = src.outcome ∧ SourceReason r.inner.calls e r'.inner := by
  have hg := ops_invariant (buffered_neverPanics src.outcome) ops hops _ (buffered_new hc)
  rw [← hr] at hg
  obtain ⟨h1, h2⟩ := BufferedReader.reason_fails (C66_operation h) hg.1.contract
  exact ⟨h1.trans hg.2, h2⟩

/-- **C66.** The same for opening a stream. -/
theorem C66_openSource {src : Src} (hc : src.Contract) {fuel : Nat} {o : FlacReaderOptions} {e : IoError}
    (h : FlacReader.newExt fuel src o = .error (.err (.ioError e))) :
    ∃ src', src'.outcome = src.outcome ∧ SourceReason src.calls e src' := by
  obtain ⟨r, hr⟩ := C66_open h
  exact ⟨r.inner, BufferedReader.reason_fails hr hc⟩

/-- **C66.** A source that does not fail cannot cause any I/O error but `UnexpectedEof`, and that only by ending:
as long as it delivers data, whatever that is, there are no I/O errors. -/
theorem C66_reliable {src : Src} (hc : src.Contract) (hs : ∀ k code written, src.outcome k ≠ .err code written)
    (ops : List Op) (hops : ∀ op ∈ ops, op.WellTyped) {op : Op} {e : IoError}
    (h : (op.run (afterOps ops (BufferedReader.new src))).1 = .error (.err (.ioError e))) :
    e = .unexpectedEof ∧ ∃ k ≥ src.calls, ∃ written, src.outcome k = .ok 0 written := by
  have hl := (ops_invariant (buffered_lazy (BufferedReader.new src)) ops hops _ ⟨(buffered_new hc).1, .refl _⟩).2.lazy
  have hle : src.calls ≤ (afterOps ops (BufferedReader.new src)).inner.calls := by
    rcases hl with hl | ⟨n, -, code, _, hn⟩
    · exact hl.calls
    · exact (hs _ _ _ hn).elim
  obtain ⟨h1, h2⟩ := C66_source hc ops hops rfl (Prod.ext h rfl)
  have hlt := h2.called
  rcases h2.reason with ⟨code, _, h3, -⟩ | ⟨written, h3, h4⟩
  · rw [h1] at h3
    exact (hs _ _ _ h3).elim
  · rw [h1] at h3
    exact ⟨h4, _, by omega, written, h3⟩

/-- Examples: a source that fails, and one that ends too early, while opening a stream. -/
example : openSession 5 .default (BufferedReader.new ⟨fun _ => .err 7 [0x66], 0⟩) = .error (.err (.ioError (.inner 7))) ∧
    openSession 5 .default (BufferedReader.new (bytewise [0x66, 0x4c])) = .error (.err (.ioError .unexpectedEof)) := by
  decide +kernel

/-- After four bytes, the source of C58 fails in its second call. -/
example : (Op.readU8.run (afterOps [.readBeU32] (BufferedReader.new endlessSource))).1 =
      .error (.err (.ioError (.inner 5))) ∧
    (Op.readU8.run (afterOps [.readBeU32] (BufferedReader.new endlessSource))).2.inner.calls = 2 := by
  decide +kernel

/-- The iterator over metadata blocks, and the one over samples, of a source that fails. -/
example : (∃ r', MetadataBlockReader.next (MetadataBlockReader.new (BufferedReader.new ⟨fun _ => .err 7 [], 0⟩)) =
      (.ok (some (.error (.ioError (.inner 7)))), r') ∧
      ReaderFails (BufferedReader.new ⟨fun _ => .err 7 [], 0⟩) (.err (.ioError (.inner 7))) r'.input) ∧
    ∃ it', FlacSamples.next (FlacSamples.new (BufferedReader.new ⟨fun _ => .err 7 [], 0⟩)) =
      (.ok (some (.error (.ioError (.inner 7)))), it') ∧
      ReaderFails (BufferedReader.new ⟨fun _ => .err 7 [], 0⟩) (.err (.ioError (.inner 7))) it'.frameReader := by
  have h1 : MetadataBlockReader.next (MetadataBlockReader.new (BufferedReader.new ⟨fun _ => .err 7 [], 0⟩)) =
      (.ok (some (.error (.ioError (.inner 7)))), _) := Prod.ext (by decide +kernel) rfl
  have h2 : FlacSamples.next (FlacSamples.new (BufferedReader.new ⟨fun _ => .err 7 [], 0⟩)) =
      (.ok (some (.error (.ioError (.inner 7)))), _) := Prod.ext (by decide +kernel) rfl
  exact ⟨⟨_, h1, C66_metadata h1⟩, ⟨_, h2, C66_samples h2⟩⟩

/-- After four bytes, the source fails: the failure is reported for the byte after them. -/
example : SourceReason (afterOps [.readBeU32] (BufferedReader.new endlessSource)).inner.calls (.inner 5)
    (Op.readU8.run (afterOps [.readBeU32] (BufferedReader.new endlessSource))).2.inner := by
  have h : (Op.readU8.run (afterOps [.readBeU32] (BufferedReader.new endlessSource))).1 =
    .error (.err (.ioError (.inner 5))) := by decide +kernel
  have gen : ∀ {r : BufferedReader}, r = afterOps [.readBeU32] (BufferedReader.new endlessSource) →
      (Op.readU8.run r).1 = .error (.err (.ioError (.inner 5))) →
      SourceReason r.inner.calls (.inner 5) (Op.readU8.run r).2.inner := fun hr h =>
    (C66_source endlessSource_mild.1 [.readBeU32] (by simp [Op.WellTyped]) hr (Prod.ext h rfl)).2
  exact gen rfl h

end Claxon.Props
