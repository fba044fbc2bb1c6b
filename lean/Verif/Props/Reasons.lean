import Verif.Proof.Uncountable
import Verif.Props.Classified

/-! # C81: every error has its reason -/

namespace Claxon.Props

open Claxon Spec ReadBytes

variable {r : BufferedReader} {bytes : List U8} {fault : Option Nat}

/-- The input begins with a frame. -/
def BeginsWithFrame (bytes : List U8) : Prop :=
  ∃ bps f rest, Frame.WellFormed bps f ∧ bytes = f.bytes bps ++ rest

/-- The input begins with something that a decoder must refuse, with the error `e`. -/
def Refused (bytes : List U8) (e : Error) : Prop :=
  ∃ used rest, bytes = used ++ rest ∧ RefusedFrame used e

theorem refused_result {e : Error} (buffer : VecI32) (hr : r.Remaining bytes fault) (h : Refused bytes e) :
    (readNextOrEof buffer r).1 = .error (.err e) := by
  obtain ⟨used, rest, rfl, h⟩ := h
  rw [Sim.result ((simBufferedRd fault).readNextOrEof buffer) hr]
  exact frame_refused h buffer rest fault

theorem result_refused {e : Error} {buffer : VecI32} (hr : r.Remaining bytes fault)
    (h : (readNextOrEof buffer r).1 = .error (.err e)) :
    e = .ioError (fault.elim .unexpectedEof .inner) ∨ Refused bytes e := by
  rw [Sim.result ((simBufferedRd fault).readNextOrEof buffer) hr] at h
  exact refused_frame buffer ⟨bytes, fault⟩ (s' := (readNextOrEof buffer (⟨bytes, fault⟩ : Flat)).2)
    (Prod.ext h rfl)

theorem uncountable_result (buffer : VecI32) (hr : r.Remaining bytes fault) :
    (readNextOrEof buffer r).1 = .error (.panic .overflow) ↔ Uncountable bytes := by
  rw [Sim.result ((simBufferedRd fault).readNextOrEof buffer) hr]
  exact ⟨fun h => uncountable_frame buffer ⟨bytes, fault⟩ (Prod.ext h rfl), fun h => frame_uncountable h buffer fault⟩

theorem uncountable_longZeros (h : Uncountable bytes) : LongZeros (bytesToBits bytes) := by
  have hr := bytewise_remaining bytes
  have h1 := (uncountable_result .empty hr).2 h
  rcases C27_partial .empty hr with ⟨⟨a, h2⟩ | ⟨e, h2⟩⟩ | ⟨_, h2⟩
  · rw [h1] at h2; cases h2
  · rw [h1] at h2; cases h2
  · exact h2

theorem longZeros_length (h : LongZeros (bytesToBits bytes)) : 2 ^ 29 ≤ bytes.length := by
  obtain ⟨pre, n, post, hn, h⟩ := h
  have := congrArg List.length h
  simp only [List.length_append, List.length_replicate, length_bytesToBits] at this
  omega

theorem refusedResidual_notIo {bs order : Nat} {bits : List Bool} {e : Error} (h : RefusedResidual bs order bits e)
    (io : IoError) : e ≠ .ioError io := by
  cases h <;> simp

theorem refusedSubframe_notIo {bps bs : Nat} {bits : List Bool} {e : Error} (h : RefusedSubframe bps bs bits e)
    (io : IoError) : e ≠ .ioError io := by
  cases h with
  | fixedResidual _ _ _ _ _ _ _ _ h => exact refusedResidual_notIo h io
  | lpcResidual _ _ _ _ _ _ _ _ _ _ _ _ _ _ _ _ _ h => exact refusedResidual_notIo h io
  | _ => simp

theorem refused_notIo {used : List U8} {e : Error} (h : RefusedFrame used e) (io : IoError) : e ≠ .ioError io := by
  cases h with
  | header _ _ h => cases h <;> simp
  | sampleSize => simp
  | subframe _ _ _ _ _ _ _ _ _ _ h => exact refusedSubframe_notIo h io
  | checksum => simp

/-- **C81.** Reading a frame fails with a `FormatError` or an `Unsupported` error exactly if the input begins
with something that is to be refused with that error. -/
theorem C81_reason (buffer : VecI32) (hr : r.Remaining bytes fault) {e : Error} (he : ∀ io, e ≠ .ioError io) :
    (readNextOrEof buffer r).1 = .error (.err e) ↔ Refused bytes e :=
  ⟨fun h => (result_refused hr h).resolve_left (he _), refused_result buffer hr⟩

/-- **C81.** There is at most one reason to refuse an input, and none if it begins with a frame, or with something that
the decoder cannot count. -/
theorem C81_unique {e e' : Error} (h : Refused bytes e) :
    (Refused bytes e' → e' = e) ∧ ¬ BeginsWithFrame bytes ∧ ¬ Uncountable bytes := by
  have hr := bytewise_remaining bytes
  have h1 := refused_result .empty hr h
  refine ⟨fun h' => ?_, ?_, fun h' => ?_⟩
  · have h2 := refused_result .empty hr h'
    rw [h1] at h2
    cases h2
    rfl
  · rintro ⟨bps, f, rest, hw, rfl⟩
    obtain ⟨r', h2, _⟩ := buffered_frame hw .empty hr
    rw [h2] at h1
    cases h1
  · rw [(uncountable_result .empty hr).2 h'] at h1
    cases h1

/-- **C81.** All there is to say about reading a frame: there is a block if the input begins with a frame, `None` if
it ends before two bytes, the error in question if it begins with what is to be refused, and an arithmetic overflow if it
begins with more zeros than can be counted. Otherwise it ends too early, and the error is the one of the source, or
`UnexpectedEof`. -/
theorem C81_outcome (buffer : VecI32) (hr : r.Remaining bytes fault) :
    match (readNextOrEof buffer r).1 with
    | .ok (some _) => BeginsWithFrame bytes
    | .ok none => bytes.length < 2 ∧ fault = none
    | .error (.err e) => Refused bytes e ∨
        e = .ioError (fault.elim .unexpectedEof .inner) ∧ ¬ BeginsWithFrame bytes ∧ (∀ e', ¬ Refused bytes e') ∧
          ¬ Uncountable bytes ∧ (2 ≤ bytes.length ∨ fault ≠ none)
    | .error f => f = .panic .overflow ∧ Uncountable bytes := by
  have h0 := Sim.result ((simBufferedRd fault).readNextOrEof buffer) hr
  have h1 := frame_reads buffer ⟨bytes, fault⟩
  have h2 := fun e => result_refused (e := e) (buffer := buffer) hr
  have h3 := fun e => refused_result (e := e) buffer hr
  have h4 : BeginsWithFrame bytes → ∃ b, (readNextOrEof buffer r).1 = .ok (some b) := by
    rintro ⟨bps, f, rest, hw, rfl⟩
    obtain ⟨r', h2, _⟩ := buffered_frame hw buffer hr
    exact ⟨_, by rw [h2]⟩
  have h5 : bytes.length < 2 → fault = none → (readNextOrEof buffer r).1 = .ok none := by
    rintro hl rfl
    rw [h0]
    match bytes, hl with
    | [], _ => rfl
    | [_], _ => rw [readNextOrEof_flat]; rfl
  have h6 := uncountable_result buffer hr
  rw [h0] at h2 h3 h4 h5 h6 ⊢
  generalize readNextOrEof buffer (⟨bytes, fault⟩ : Flat) = x at h1 h2 h3 h4 h5 h6 ⊢
  rcases x with ⟨(e | _ | _ | _) | _ | b, s⟩
  · rcases h2 e rfl with h | h
    · refine .inr ⟨h, fun hb => ?_, fun e' he' => ?_, fun hu => (by cases h6.2 hu), ?_⟩
      · obtain ⟨b, hb⟩ := h4 hb
        cases hb
      · have := h3 e' he'
        simp only [Except.error.injEq, Fail.err.injEq] at this
        subst this
        obtain ⟨used, rest, rfl, h'⟩ := he'
        exact refused_notIo h' _ h
      · rcases Nat.lt_or_ge bytes.length 2 with hl | hl
        · exact .inr fun hf => by cases h5 hl hf
        · exact .inl hl
    · exact .inl h
  · exact ⟨h1.1, h6.1 (by rw [h1.1])⟩
  · cases h1.1
  · cases h1.1
  · exact h1
  · obtain ⟨-, bps, f, hw, hb, -⟩ := h1
    exact ⟨bps, f, s.bytes, hw, hb⟩

/-- **C81.** An I/O error is the one of the source, or `UnexpectedEof` if there is none. The input then begins
neither with a frame nor with anything that is to be refused, or cannot be counted. -/
theorem C81_ioError {buffer : VecI32} (hr : r.Remaining bytes fault) {io : IoError}
    (h : (readNextOrEof buffer r).1 = .error (.err (.ioError io))) :
    io = fault.elim .unexpectedEof .inner ∧ ¬ BeginsWithFrame bytes ∧ (∀ e, ¬ Refused bytes e) ∧
      ¬ Uncountable bytes := by
  have h1 := C81_outcome buffer hr
  rw [h] at h1
  rcases h1 with ⟨used, rest, _, h2⟩ | ⟨h2, h3, h4, h5, _⟩
  · exact absurd rfl (refused_notIo h2 io)
  · cases h2
    exact ⟨rfl, h3, h4, h5⟩

/-- **C81.** The input ends too early, and is too short to be the beginning of anything that is refused
or cannot be counted. -/
theorem C81_truncated (buffer : VecI32) (hr : r.Remaining bytes fault) (hf : ¬ BeginsWithFrame bytes)
    (he : ∀ e, ¬ Refused bytes e) (h2 : 2 ≤ bytes.length) (hz : ¬ Uncountable bytes) :
    (readNextOrEof buffer r).1 = .error (.err (.ioError (fault.elim .unexpectedEof .inner))) := by
  have h := C81_outcome buffer hr
  generalize (readNextOrEof buffer r).1 = x at h ⊢
  rcases x with (e | _ | _ | _) | _ | b
  · rcases h with h | ⟨rfl, _⟩
    · exact absurd h (he e)
    · rfl
  · exact absurd h.2 hz
  · exact absurd h.2 hz
  · exact absurd h.2 hz
  · exact absurd h.1 (by omega)
  · exact absurd h hf

/-- **C81.** An `Unsupported` error tells of one of the features that are not implemented. -/
theorem C81_features {buffer : VecI32} (hr : r.Remaining bytes fault) {msg : String}
    (h : (readNextOrEof buffer r).1 = .error (.err (.unsupported msg))) : ∃ x : Feature, msg = x.message := by
  obtain ⟨used, rest, -, h⟩ := (C81_reason buffer hr (by simp)).1 h
  have hres : ∀ {bs order bits}, RefusedResidual bs order bits (.unsupported msg) → ∃ x : Feature, msg = x.message := by
    intro bs order bits h
    cases h
    exact ⟨_, rfl⟩
  cases h with
  | header _ _ h => cases h
  | sampleSize => exact ⟨_, rfl⟩
  | subframe _ _ _ _ _ _ _ _ _ _ h =>
    cases h with
    | fixedResidual _ _ _ _ _ _ _ _ h => exact hres h
    | shift => exact ⟨_, rfl⟩
    | lpcResidual _ _ _ _ _ _ _ _ _ _ _ _ _ _ _ _ _ h => exact hres h

/-! ## Examples -/

/-- Not a frame at all. -/
example : Refused [0x66#8, 0x4c#8, 0x61#8, 0x43#8] (.formatError "frame sync code missing") :=
  ⟨[0x66#8, 0x4c#8], _, rfl, .header _ _ (.sync _ _ (by decide))⟩

/-- A frame number whose second byte is not a continuation byte. -/
example : Refused [0xff#8, 0xf8#8, 0x69#8, 0x08#8, 0xc4#8, 0x2c#8]
    (.formatError "invalid variable-length integer") :=
  ⟨[0xff#8, 0xf8#8, 0x69#8, 0x08#8, 0xc4#8, 0x2c#8], [], rfl, .header _ _ (.number
    ⟨false, false, 6, 9, 0, 4, false⟩ (by unfold HeaderCodes.Reserved; decide) [0xc4#8, 0x2c#8]
    (.continuation 1 300 0 (by unfold CodedNumberAccepted CodedNumberOk; decide) (by decide) 0x2c#8 (by decide)))⟩

/-- The header of the frames of these examples: four samples of 16 bits in one channel. -/
def monoHeader : Spec.FrameHeader where
  variableBlockSize := false
  blockSize := .bits8 3
  sampleRate := .table 8
  channels := .independent 0
  sampleSize := .bits16
  number := 300
  numberLength := 1

theorem monoHeader_wellFormed : monoHeader.WellFormed :=
  Spec.FrameHeader.Legal.wellFormed ⟨by decide, by decide, by decide⟩

/-- A linear predictor of order 5 in a block of four samples. The last bit does not matter. -/
theorem refused_order (more : U8) : Refused (monoHeader.bytes ++ [0x48#8, more])
    (.formatError "invalid LPC subframe, lpc order is larger than block size") :=
  ⟨monoHeader.bytes ++ [0x48#8], [more], by simp, .subframe monoHeader 16 monoHeader_wellFormed rfl [] (by simp)
    16 rfl _ _ (.lpcOrder 5 0 (by decide) (by decide) (by decide) (by decide)) [] (by decide) [0x48#8] (by decide)⟩

/-- A residual whose second partition is not Rice coded, after one that is. -/
theorem refused_escape : Refused (unencodedFrame.bytes 16) (.unsupported Feature.unencodedPartition.message) :=
  ⟨monoHeader.bytes ++ [18#8, 0#8, 4#8, 4#8, 87#8, 141#8], (unencodedFrame.bytes 16).drop 14,
    by decide +kernel, .subframe monoHeader 16 monoHeader_wellFormed rfl [] (by simp) 16 rfl _ _
      (.fixedResidual [4] 0 (by decide) (by decide) (by decide) (by decide) _ _
        (.escape .rice 1 (by decide) (by decide) (by decide) [⟨1, [1]⟩] (by decide) (by decide) (by decide)))
      (natToBits 7 13) (by decide) _ (by decide +kernel)⟩

/-- Both are found, by readers of any kind. -/
example (more : U8) (buffer : VecI32) :
    (readNextOrEof buffer (BufferedReader.new (bytewise (monoHeader.bytes ++ [0x48#8, more])))).1 =
      .error (.err (.formatError "invalid LPC subframe, lpc order is larger than block size")) ∧
    (readNextOrEof buffer (BufferedReader.new (bytewise (unencodedFrame.bytes 16)))).1 =
      .error (.err (.unsupported Feature.unencodedPartition.message)) :=
  ⟨(C81_reason buffer (bytewise_remaining _) (by simp)).2 (refused_order more),
    (C81_reason buffer (bytewise_remaining _) (by simp)).2 refused_escape⟩

/-- The beginning of a header: neither a frame, nor a reason to refuse it. -/
example : ¬ BeginsWithFrame [0xff#8, 0xf8#8, 0x69#8] ∧ (∀ e, ¬ Refused [0xff#8, 0xf8#8, 0x69#8] e) ∧
    ¬ Uncountable [0xff#8, 0xf8#8, 0x69#8] := by
  have h1 : (readNextOrEof .empty (BufferedReader.new (bytewise [0xff#8, 0xf8#8, 0x69#8]))).1 =
      .error (.err (.ioError .unexpectedEof)) := by
    rw [Sim.result ((simBufferedRd none).readNextOrEof .empty) (bytewise_remaining _), readNextOrEof_flat]
    rfl
  obtain ⟨_, h2, h3⟩ := C81_ioError (bytewise_remaining _) h1
  exact ⟨h2, h3⟩

end Claxon.Props
