import Verif.Proof.FrameApi
import Verif.Proof.Independent

/-! # Frames that make the counter of a unary code overflow -/

namespace Claxon

open Spec ReadBytes Bitstream

theorem failsOn_readUnary {n : Nat} (hn : 2 ^ 32 ≤ n) :
    FailsOn readUnary (unaryBits n) (.panic .overflow) :=
  .of fun _ _ hi hb => (Bitstream.readUnary_unary hi hb).2 hn

theorem failsOn_wasted {n : Nat} (hn : 2 ^ 32 ≤ n) :
    FailsOn wastedDec (true :: unaryBits n) (.panic .overflow) :=
  FailsOn.bind (reads_readBit true) (FailsOn.bind_left _ (failsOn_readUnary hn))

/-- A constant subframe with more than `2^32` wasted bits per sample. -/
theorem failsOn_subframe {n bps : Nat} (hbps : bps ≤ 32) (hn : 2 ^ 32 ≤ n) (buffer : List I32) :
    FailsOn (decodeSubframe bps buffer) (false :: natToBits 6 0 ++ (true :: unaryBits n))
      (.panic .overflow) := by
  unfold decodeSubframe
  refine FailsOn.bind_lift (debugAssert_ok (decide_eq_true hbps)) (FailsOn.bind_left _ ?_)
  rw [readSubframeHeader_eq]
  show FailsOn _ ([false] ++ (natToBits 6 0 ++ (true :: unaryBits n))) _
  refine FailsOn.bind (reads_readBit false) ?_
  simp only [Bool.false_eq_true, if_false]
  refine FailsOn.bind (reads_readLeqU8 (k := 6) (v := 0) (by decide) (by decide)) ?_
  rw [show (subframeTypeOf (BitVec.ofNat 8 0) : Dec (Bitstream Flat) _) = pure .constant from rfl, pure_bind]
  refine FailsOn.bind_left _ ?_
  exact failsOn_wasted hn

theorem failsOn_channels {n bps bs : Nat} (hbps : bps ≤ 32) (hn : 2 ^ 32 ≤ n) {buffer : List I32}
    (hb : buffer.length = bs) :
    FailsOn (decodeChannels (.independent 1) bps bs buffer)
      (false :: natToBits 6 0 ++ (true :: unaryBits n)) (.panic .overflow) := by
  unfold decodeChannels decodeIndependent withSlice
  refine FailsOn.bind_left _ (FailsOn.bind_lift (slice_ok (by omega)) (FailsOn.bind_left _ ?_))
  exact failsOn_subframe hbps hn _

theorem bytesToBits_zeros (n : Nat) : bytesToBits (List.replicate n 0#8) = List.replicate (8 * n) false := by
  induction n with
  | zero => rfl
  | succ n ih =>
    rw [List.replicate_succ, show 8 * (n + 1) = 8 + 8 * n by omega, ← List.replicate_append_replicate, ← ih]
    rfl

/-- The frame header of the example: one channel, 192 samples of 8 bits. -/
def hugeHeader : Spec.FrameHeader where
  variableBlockSize := false
  blockSize := .size192
  sampleRate := .streaminfo
  channels := .independent 0
  sampleSize := .bits8
  number := 0
  numberLength := 0

/-- The header, the header of a subframe that announces wasted bits, `8 * n` zeros and a one. -/
def hugeFrame (n : Nat) : List U8 :=
  hugeHeader.bytes ++ ([0x01#8] ++ List.replicate n 0#8 ++ [0x80#8])

theorem bits_huge (n : Nat) : bytesToBits ([0x01#8] ++ List.replicate n 0#8 ++ [0x80#8]) =
    (false :: natToBits 6 0 ++ (true :: unaryBits (8 * n))) ++ List.replicate 7 false := by
  rw [bytesToBits_append, bytesToBits_append, bytesToBits_zeros]
  have e1 : bytesToBits [0x01#8] = false :: natToBits 6 0 ++ [true] := by decide
  have e2 : bytesToBits [0x80#8] = [true] ++ List.replicate 7 false := by decide
  rw [e1, e2]
  simp [unaryBits]

theorem hugeHeader_wellFormed : hugeHeader.WellFormed where
  number := .inl (by unfold CodedNumberOk; decide)
  frameNumber := by decide

theorem hugeFrame_panics {n : Nat} (hn : 2 ^ 29 ≤ n) (buffer : VecI32) (fault : Option Nat) :
    (readNextOrEof buffer (⟨hugeFrame n, fault⟩ : Flat)).1 = .error (.panic .overflow) := by
  rw [readNextOrEof_flat]
  have hh := reads_header hugeHeader hugeHeader_wellFormed
    ([0x01#8] ++ List.replicate n 0#8 ++ [0x80#8]) fault
  rw [readFrameHeaderOrEof_flat] at hh
  unfold hugeFrame
  rw [Dec.bind_ok _ hh]
  simp only [flatBody]
  rw [show (headerOf hugeHeader).bitsPerSample = some 8 from rfl]
  simp only
  rw [Dec.bind_liftM_of (debugAssert_ok (by decide))]
  have hf := failsOn_channels (n := 8 * n) (bps := 8) (bs := 192) (by omega) (by omega)
    (buffer := (ensureBufferLen buffer 192).data) (ensureBufferLen_length _ _)
  obtain ⟨b', hb', -⟩ := hf
    (Bitstream.new ⟨[0x01#8] ++ List.replicate n 0#8 ++ [0x80#8], fault⟩) (List.replicate 7 false)
    (Bitstream.inv_new _) (by rw [Bitstream.bits_new, bits_huge])
  rw [Dec.bind_def]
  have hw : withBitstream (decodeChannels (headerOf hugeHeader).channelAssignment 8
      (headerOf hugeHeader).blockSize (ensureBufferLen buffer
        ((headerOf hugeHeader).channels * (headerOf hugeHeader).blockSize)).data)
      ⟨[0x01#8] ++ List.replicate n 0#8 ++ [0x80#8], fault⟩ =
      (.error (.panic .overflow), b'.reader) := by
    show withBitstream (decodeChannels (.independent 1) 8 192 (ensureBufferLen buffer 192).data) _ = _
    simp only [withBitstream]
    rw [hb']
  rw [hw]

end Claxon
