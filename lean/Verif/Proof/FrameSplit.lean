import Verif.Spec.Checked
import Verif.Proof.Dec
import Verif.Model.Frame

/-! Cutting the frame header reader into the part that reads the fields and the part that looks at the
checksum. -/

namespace Claxon

open ReadBytes

variable {σ : Type} [ReadBytes σ]

/-- The fields of a frame header after the first two bytes. -/
def headerFields [Build] (sync : U16) : Dec σ FrameHeader :=
  if sync &&& 0b1111_1111_1111_1100#16 ≠ 0b1111_1111_1111_1000#16 then
    fmtErr "frame sync code missing"
  else if sync &&& 0b0000_0000_0000_0010#16 ≠ 0#16 then
    fmtErr "invalid frame header, encountered reserved value"
  else do
    let bsSr ← readU8
    let bsCode ← blockSizeCode (bsSr >>> 4).toNat
    let srCode ← sampleRateCode (bsSr &&& 0b0000_1111#8).toNat
    let chanBpsRes ← readU8
    let channelAssignment ← channelAssignmentCode (chanBpsRes >>> 4).toNat
    let bitsPerSample ← bitsPerSampleCode ((chanBpsRes &&& 0b0000_1110#8) >>> 1).toNat
    if chanBpsRes &&& 0b0000_0001#8 ≠ 0#8 then
      fmtErr "invalid frame header, encountered reserved value"
    else do
      let blockTime ← readBlockTime (!(sync &&& 0b0000_0000_0000_0001#16 == 0#16))
      let blockSize ← readBlockSize bsCode
      let sampleRate ← readSampleRate srCode
      pure
        { blockTime := blockTime
          blockSize := blockSize
          sampleRate := sampleRate
          channelAssignment := channelAssignment
          bitsPerSample := bitsPerSample }

/-- The fields of a frame header after the first two bytes, and the checksum. -/
def headerRest [FuzzCfg] [Build] (sync : U16) : Dec (Crc8Reader σ) FrameHeader := do
  let h ← headerFields sync
  let crcInput ← Dec.get
  let presumedCrc ← readU8
  if FuzzCfg.fuzzing = false ∧ crcInput.crc ≠ presumedCrc then fmtErr "frame header CRC mismatch"
  else pure h

theorem readFrameHeaderBody_eq [FuzzCfg] [Build] : (readFrameHeaderBody : Dec (Crc8Reader σ) _) = (do
    match ← readBeU16OrEof with
    | none => pure none
    | some sync => do
      let h ← headerRest sync
      pure (some h)) := by
  unfold readFrameHeaderBody headerRest headerFields
  congr 1
  funext o
  rcases o with _ | sync
  · rfl
  simp only [bind_assoc]
  by_cases h1 : sync &&& 65532#16 ≠ 65528#16
  · rw [if_pos h1, if_pos h1]; rfl
  rw [if_neg h1, if_neg h1]
  by_cases h2 : sync &&& 2#16 ≠ 0#16
  · rw [if_pos h2, if_pos h2]; rfl
  rw [if_neg h2, if_neg h2]
  simp only [bind_assoc]
  congr 1; funext bsSr
  congr 1; funext bsCode
  congr 1; funext srCode
  congr 1; funext cbr
  congr 1; funext ca
  congr 1; funext bps
  by_cases h3 : cbr &&& 1#8 ≠ 0#8
  · rw [if_pos h3, if_pos h3]; rfl
  rw [if_neg h3, if_neg h3]
  simp only [bind_assoc, pure_bind]
  congr 1; funext t
  congr 1; funext bs
  congr 1; funext sr
  congr 1; funext c
  congr 1; funext p
  by_cases h4 : FuzzCfg.fuzzing = false ∧ c.crc ≠ p
  · rw [if_pos h4, if_pos h4]; rfl
  · rw [if_neg h4, if_neg h4]; rfl

end Claxon
