import Verif.Proof.Recovery
import Verif.Props.Reasons

/-! # C87: reading on after an error -/

namespace Claxon.Props

open Claxon Spec ReadBytes

/-- A part of a stream: a frame with its samples, or something that is to be refused. -/
inductive Piece where
  | frame (e : Encoded)
  | refused (used : List U8) (e : Error) (h : RefusedFrame used e)

/-- The bytes of a part. -/
def Piece.bytes : Piece → List U8
  | .frame e => e.frame.bytes e.bps
  | .refused used _ _ => used

/-- What reading a part returns. -/
def Piece.Gives : Piece → Except Fail (Option Block) → Prop
  | .frame e, result => ∃ b : Block, result = .ok (some b) ∧ b.Holds e.frame.header.time e.channels
  | .refused _ e _, result => result = .error (.err e)

variable {r : BufferedReader} {bytes rest : List U8} {fault : Option Nat}

/-- **C87.** What is to be refused is used up, whatever follows it, and nothing else: the next call reads what
follows. -/
theorem C87_refused {used : List U8} {e : Error} (h : RefusedFrame used e) (buffer : VecI32)
    (hr : r.Remaining (used ++ rest) fault) :
    ∃ r', readNextOrEof buffer r = (.error (.err e), r') ∧ r'.Remaining rest fault := by
  have h1 := refused_result buffer hr ⟨used, rest, rfl, h⟩
  have hio : IsIoError (readNextOrEof buffer r).1 = false := by
    rw [h1]
    cases e with
    | ioError io => exact absurd rfl (refused_notIo h io)
    | _ => rfl
  obtain ⟨rest', -, h2, h3⟩ := Sim.remaining ((simBufferedRd fault).readNextOrEof buffer)
    ((simSuffix _ fault).rd.readNextOrEof buffer) hr hio
  rw [h1, frame_refused_run h] at h2
  simp only [Prod.mk.injEq, Flat.mk.injEq, and_true, true_and] at h2
  subst h2
  exact ⟨_, Prod.ext h1 rfl, h3⟩

/-- **C87.** Conversely, after a `FormatError` or an `Unsupported` error the reader stands right behind the bytes that
are the reason for the error, and these are at least two. -/
theorem C87_position {buffer : VecI32} {e : Error} (hr : r.Remaining bytes fault) (he : ∀ io, e ≠ .ioError io)
    (h : (readNextOrEof buffer r).1 = .error (.err e)) :
    ∃ used rest, bytes = used ++ rest ∧ RefusedFrame used e ∧ 2 ≤ used.length ∧
      (readNextOrEof buffer r).2.Remaining rest fault := by
  have h0 := h
  rw [Sim.result ((simBufferedRd fault).readNextOrEof buffer) hr] at h0
  obtain ⟨used, rest, rfl, h1, h2, -⟩ := refused_exact buffer he h0
  obtain ⟨r', h3, h4⟩ := C87_refused h1 buffer hr
  rw [h3]
  exact ⟨used, rest, rfl, h1, h2, h4⟩

/-- **C87.** A frame in which only the checksum at its end is wrong costs that frame, and no other: the next call reads
what follows the frame. -/
theorem C87_checksum {bps : Nat} {f : Frame} (hw : f.WellFormed bps) {a b : U8}
    (hc : a.toNat * 256 + b.toNat ≠ (crc16 (f.contentBytes bps)).toNat) (buffer : VecI32)
    (hr : r.Remaining (f.contentBytes bps ++ [a, b] ++ rest) fault) :
    ∃ r', readNextOrEof buffer r = (.error (.err (.formatError "frame CRC mismatch")), r') ∧ r'.Remaining rest fault :=
  C87_refused (.checksum f bps hw a b hc) buffer hr

theorem readFrames_end (more : List VecI32) (hr : r.Remaining [] none) :
    readFrames more r = more.map fun _ => .ok none := by
  induction more generalizing r with
  | nil => rfl
  | cons buffer more ih =>
    obtain ⟨r', h1, h2⟩ := Sim.ok ((simBufferedRd none).readNextOrEof buffer) hr (readNextOrEof_nil buffer)
    rw [readFrames, h1, ih h2]
    rfl

/-- **C87.** A stream of frames with anything to be refused in between: a client that goes on after errors gets the
blocks of all frames, with their samples, an error for each of the other parts, all in the order of the stream, and then
`None` as often as it calls. -/
theorem C87_pieces (pieces : List Piece) (buffers more : List VecI32) (hl : buffers.length = pieces.length)
    (hr : r.Remaining (pieces.flatMap Piece.bytes) none) :
    ∃ results, readFrames (buffers ++ more) r = results ++ more.map (fun _ => .ok none) ∧
      List.Forall₂ Piece.Gives pieces results := by
  induction pieces generalizing r buffers with
  | nil =>
    obtain rfl : buffers = [] := List.eq_nil_of_length_eq_zero hl
    exact ⟨[], readFrames_end more hr, .nil⟩
  | cons p pieces ih =>
    match buffers, hl with
    | buffer :: buffers, hl =>
      rw [List.flatMap_cons] at hr
      have step : ∃ result r', readNextOrEof buffer r = (result, r') ∧
          r'.Remaining (pieces.flatMap Piece.bytes) none ∧ p.Gives result := by
        cases p with
        | frame e =>
          obtain ⟨block, r', h1, h2, h3⟩ := C23_lossless e.encodes buffer hr
          exact ⟨_, r', h1, h2, block, rfl, h3⟩
        | refused used e h =>
          obtain ⟨r', h1, h2⟩ := C87_refused h buffer hr
          exact ⟨_, r', h1, h2, rfl⟩
      obtain ⟨result, r', h1, h2, h3⟩ := step
      obtain ⟨results, h4, h5⟩ := ih buffers (by simpa using hl) h2
      refine ⟨result :: results, ?_, .cons h3 h5⟩
      rw [List.cons_append, readFrames, h1, h4]
      rfl

/-- **C87.** Whatever the source delivers before it ends, and whatever buffers are passed: a client that goes on after
errors of any kind is told of the end, by `None`, after at most one call for every two bytes, and from then on at each
call. -/
theorem C87_ends (buffers : List VecI32) (hr : r.Remaining bytes none) :
    ∃ results n, readFrames buffers r = results ++ List.replicate n (.ok none) ∧ .ok none ∉ results ∧
      results.length ≤ bytes.length / 2 := by
  induction buffers generalizing r bytes with
  | nil => exact ⟨[], 0, rfl, by simp, by simp⟩
  | cons buffer buffers ih =>
    rcases (simBufferedRd none).readNextOrEof buffer r _ hr.rel with ⟨h1, h2⟩ | ⟨f, -, ⟨code, h, -⟩, -⟩
    · rcases frame_progress buffer bytes with h3 | ⟨h3, used, rest, rfl, hl, h4⟩
      · rw [h3] at h1 h2
        refine ⟨[], (buffer :: buffers).length, ?_, by simp, by simp⟩
        rw [readFrames, h1, readFrames_end buffers h2.remaining, List.map_const', List.length_cons,
          List.replicate_succ, List.nil_append]
      · rw [h4] at h2
        obtain ⟨results, n, h5, h6, h7⟩ := ih h2.remaining
        refine ⟨(readNextOrEof buffer r).1 :: results, n, ?_, ?_, ?_⟩
        · rw [readFrames, h5]; rfl
        · rw [List.mem_cons, not_or, h1]
          exact ⟨fun h => h3 h.symm, h6⟩
        · simp only at h7
          rw [List.length_cons, List.length_append]
          omega
    · cases h

/-- A frame, two bytes that are not part of one, the frame with a wrong checksum (zeros), and again the frame. -/
def damagedStream : List Piece :=
  [.frame ⟨16, _, _, exampleFrame_encodes⟩,
    .refused [0x00#8, 0xff#8] _ (.header _ _ (.sync 0x00#8 0xff#8 (by decide))),
    .refused _ _ (.checksum exampleFrame 16 exampleFrame_encodes.legal.wellFormed 0#8 0#8 (by decide +kernel)),
    .frame ⟨16, _, _, exampleFrame_encodes⟩]

example : (BufferedReader.new (bytewise (damagedStream.flatMap Piece.bytes))).Remaining
    (damagedStream.flatMap Piece.bytes) none := bytewise_remaining _

example : ∃ b₁ b₂ : Block,
    readFrames (List.replicate 6 .empty) (BufferedReader.new (bytewise (damagedStream.flatMap Piece.bytes))) =
      [.ok (some b₁), .error (.err (.formatError "frame sync code missing")),
        .error (.err (.formatError "frame CRC mismatch")), .ok (some b₂), .ok none, .ok none] ∧
    b₁.Holds exampleFrame.header.time exampleChannels ∧ b₂.Holds exampleFrame.header.time exampleChannels := by
  obtain ⟨results, h1, h2⟩ := C87_pieces damagedStream (List.replicate 4 .empty) (List.replicate 2 .empty) rfl
    (bytewise_remaining _)
  rcases h2 with _ | ⟨⟨b₁, rfl, g1⟩, _ | ⟨h3, _ | ⟨h4, _ | ⟨⟨b₂, rfl, g2⟩, _ | _⟩⟩⟩⟩
  cases h3
  cases h4
  exact ⟨b₁, b₂, h1, g1, g2⟩

end Claxon.Props
