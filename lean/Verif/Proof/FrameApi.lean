import Verif.Proof.Frame
import Verif.Proof.Client
import Verif.Proof.Crc

/-! # Frames through a buffered reader -/

namespace Claxon

open Spec ReadBytes

theorem flat_readU8 (b : U8) (rest : List U8) (fault : Option Nat) :
    (readU8 : Dec Flat U8) ⟨b :: rest, fault⟩ = (.ok b, ⟨rest, fault⟩) := rfl

theorem delivers_unique [FuzzCfg] {outcome : Nat → ReadOutcome} {k : Nat} {bs₁ : List U8} {f₁ : Option Nat}
    (h₁ : Delivers outcome k bs₁ f₁) : ∀ {bs₂ : List U8} {f₂ : Option Nat},
    Delivers outcome k bs₂ f₂ → bs₁ = bs₂ ∧ f₁ = f₂ := by
  induction h₁ with
  | chunk h hpos hcap hlen next ih =>
    intro bs₂ f₂ h₂
    cases h₂ with
    | chunk h' hpos' hcap' hlen' next' =>
      rw [h] at h'
      cases h'
      obtain ⟨rfl, rfl⟩ := ih next'
      exact ⟨rfl, rfl⟩
    | eof h' =>
      obtain ⟨w, hw⟩ := h' _ (Nat.le_refl _)
      rw [h] at hw
      cases hw
      omega
    | fault h' =>
      rw [h] at h'
      cases h'
  | eof h =>
    intro bs₂ f₂ h₂
    obtain ⟨w, hw⟩ := h _ (Nat.le_refl _)
    cases h₂ with
    | chunk h' hpos' hcap' hlen' next' =>
      rw [h'] at hw
      cases hw
      omega
    | eof h' => exact ⟨rfl, rfl⟩
    | fault h' =>
      rw [h'] at hw
      cases hw
  | fault h =>
    intro bs₂ f₂ h₂
    cases h₂ with
    | chunk h' hpos' hcap' hlen' next' =>
      rw [h] at h'
      cases h'
    | eof h' =>
      obtain ⟨w, hw⟩ := h' _ (Nat.le_refl _)
      rw [h] at hw
      cases hw
    | fault h' =>
      rw [h] at h'
      cases h'
      exact ⟨rfl, rfl⟩

/-- What is to come is determined by the reader. -/
theorem BufferedReader.Remaining.unique [FuzzCfg] {r : BufferedReader} {bs₁ bs₂ : List U8} {f₁ f₂ : Option Nat}
    (h₁ : r.Remaining bs₁ f₁) (h₂ : r.Remaining bs₂ f₂) : bs₁ = bs₂ ∧ f₁ = f₂ := by
  obtain ⟨r₁, d₁, rfl⟩ := h₁.rest
  obtain ⟨r₂, d₂, rfl⟩ := h₂.rest
  obtain ⟨rfl, rfl⟩ := delivers_unique d₁ d₂
  exact ⟨rfl, rfl⟩

theorem _root_.Spec.Frame.Legal.wellFormed {bps : Nat} {f : Frame} (h : f.Legal bps) :
    f.WellFormed bps where
  header := h.header.wellFormed
  sampleSize := h.sampleSize
  count := h.count
  subframes := fun p hp => (h.subframes p hp).wellFormed
  padding := h.padding.1
  aligned := h.aligned

section

variable {r r' : BufferedReader} {bytes rest : List U8} {fault : Option Nat} {buffer : VecI32}

/-- Every well-formed frame is decoded. -/
theorem buffered_frame {bps : Nat} {f : Frame} (hw : f.WellFormed bps) (buffer : VecI32)
    (hr : r.Remaining (f.bytes bps ++ rest) fault) :
    ∃ r', readNextOrEof buffer r = (.ok (some (blockOf f buffer)), r') ∧ r'.Remaining rest fault :=
  Sim.ok ((simBufferedRd fault).readNextOrEof buffer) hr (reads_frame hw buffer rest fault)

/-- Whatever is decoded was a well-formed frame, but for the checksums, if they are not compared. -/
theorem of_buffered_any [FuzzCfg] {b : Block} (hr : r.Remaining bytes fault)
    (h : readNextOrEof buffer r = (.ok (some b), r')) :
    ∃ bps f c8 c16 rest, Frame.WellFormed bps f ∧ bytes = f.bytesWith bps c8 c16 ++ rest ∧ r'.Remaining rest fault ∧
      b = blockOf f buffer := by
  obtain ⟨rest, h1, h2⟩ := Sim.of_ok ((simBufferedRd fault).readNextOrEof buffer) hr h
  have h3 := frame_reads_any buffer ⟨bytes, fault⟩
  rw [h1] at h3
  obtain ⟨-, bps, f, c8, c16, hw, hb, hblock, -⟩ := h3
  exact ⟨bps, f, c8, c16, rest, hw, hb, h2, hblock⟩

theorem length_bytesWith {bps : Nat} (f : Frame) (c8 : U8) (c16 : U16) :
    (f.bytesWith bps c8 c16).length = (f.bytes bps).length := by
  unfold Frame.bytesWith Frame.bytes Frame.contentBytes FrameHeader.bytes
  simp [beBytes]

/-- Whatever is decoded was a well-formed frame. -/
theorem of_buffered_frame {b : Block} (hr : r.Remaining bytes fault)
    (h : readNextOrEof buffer r = (.ok (some b), r')) :
    ∃ bps f rest, Frame.WellFormed bps f ∧ bytes = f.bytes bps ++ rest ∧ r'.Remaining rest fault ∧
      b = blockOf f buffer := by
  obtain ⟨rest, h1, h2⟩ := Sim.of_ok ((simBufferedRd fault).readNextOrEof buffer) hr h
  have h3 := frame_reads buffer ⟨bytes, fault⟩
  rw [h1] at h3
  obtain ⟨-, bps, f, hw, hb, hblock⟩ := h3
  exact ⟨bps, f, rest, hw, hb, h2, hblock⟩

end

/-! ### A message followed by its checksum -/

theorem crc8_codeword (c : List U8) : crc8 (c ++ [crc8 c]) = 0#8 := by
  rw [crc8_append]
  generalize crc8 c = x
  revert x
  decide +kernel

theorem bytesToBits_beBytes_two (x : U16) : bytesToBits (beBytes 2 x.toNat) = natToBits 16 x.toNat := by
  have := x.isLt
  rw [natToBits_add 8 8 x.toNat]
  simp only [beBytes, bytesToBits, List.flatMap_cons, List.flatMap_nil, List.append_nil, byteBits,
    BitVec.toNat_ofNat]
  congr 1
  · rw [Nat.mod_eq_of_lt (by omega)]
    simp
  · apply natToBits_congr
    intro i hi
    rw [Nat.testBit_mod_two_pow]
    simp [hi]

theorem crc16_codeword (c : List U8) : crc16 (c ++ beBytes 2 (crc16 c).toNat) = 0#16 := by
  have h : crc16 (c ++ beBytes 2 (crc16 c).toNat) =
      crcRun 0b1000000000000101#16 (crc16 c) (natToBits 16 (crc16 c).toNat) := by
    rw [← bytesToBits_beBytes_two]
    unfold crc16 crcBits crcRun
    rw [bytesToBits_append, List.foldl_append]
  rw [h]
  apply crcRun_self
  · simp
  · intro i hi
    rw [getD_getElem' (by simpa using hi), getElem_natToBits]
    rw [BitVec.getMsbD, BitVec.testBit_toNat]
    simp [hi]

end Claxon
