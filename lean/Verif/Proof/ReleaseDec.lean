import Verif.Proof.Release

/-! The functions that read: the same in every build, unless a checked one panics. -/

namespace Claxon

variable {σ α : Type}

/-! ### The readers -/

/-- Find out that a wrapped reader is the same. -/
syntax "ref_rd" : tactic
macro_rules | `(tactic| ref_rd) => `(tactic| assumption)

/-- Calls. -/
syntax "ref_leaf" : tactic
macro_rules | `(tactic| ref_leaf) => `(tactic| exact Ref.refl _)
macro_rules | `(tactic| ref_leaf) => `(tactic| exact Ref.lift (by same_leaf))
macro_rules | `(tactic| ref_leaf) => `(tactic| exact RefRd.readU8 (by ref_rd))
macro_rules | `(tactic| ref_leaf) => `(tactic| exact RefRd.readU8OrEof (by ref_rd))
macro_rules | `(tactic| ref_leaf) => `(tactic| exact RefRd.readInto (by ref_rd) _)
macro_rules | `(tactic| ref_leaf) => `(tactic| exact RefRd.skip (by ref_rd) _)
macro_rules | `(tactic| ref_leaf) => `(tactic| exact RefRd.onAlloc (by ref_rd) _ _)

/-- Prove that a function is the same in all builds, from what is known about those it calls. -/
macro "ref" : tactic => `(tactic| repeat' (with_reducible first
  | ref_leaf | refine Ref.get ?_ | refine Sim.bind ?_ ?_ | refine Sim.ite ?_ ?_ | refine Sim.dite ?_ ?_
  | intro _))

namespace BufferedReader

theorem same_takeByte : SameB takeByte := by
  intro bd
  unfold takeByte
  refine Ref.get (fun r => ?_)
  rcases r.buf[r.pos]? with _ | byte
  · exact Ref.refl _
  · simp only
    ref
macro_rules | `(tactic| ref_leaf) => `(tactic| exact same_takeByte _)

theorem same_readU8 : SameB readU8 := by
  intro bd; unfold readU8; ref
macro_rules | `(tactic| ref_leaf) => `(tactic| exact same_readU8 _)

theorem same_readU8OrEof : SameB readU8OrEof := by
  intro bd; unfold readU8OrEof; ref

theorem same_readIntoStep (n : Nat) : SameB (readIntoStep n) := by
  intro bd; unfold readIntoStep; ref
macro_rules | `(tactic| ref_leaf) => `(tactic| exact same_readIntoStep _ _)

theorem same_readIntoLoop (fuel : Nat) : ∀ n, SameB (readIntoLoop fuel n) := by
  induction fuel with
  | zero => intro n bd; exact Ref.refl _
  | succ fuel ih =>
    intro n bd
    unfold readIntoLoop
    ref
    exact ih _ _

theorem same_skipStep (n : Nat) : SameB (skipStep n) := by
  intro bd; unfold skipStep; ref
macro_rules | `(tactic| ref_leaf) => `(tactic| exact same_skipStep _ _)

theorem same_skipLoop (fuel : Nat) : ∀ n, SameB (skipLoop fuel n) := by
  induction fuel with
  | zero => intro n bd; exact Ref.refl _
  | succ fuel ih =>
    intro n bd
    unfold skipLoop
    ref
    exact ih _ _

/-- The buffered reader. -/
theorem refRd (bd : Build) : RefRd (@instReadBytesOfBuild checkedBuild) (@instReadBytesOfBuild bd) where
  readU8 := same_readU8 bd
  readU8OrEof := same_readU8OrEof bd
  readInto _ := same_readIntoLoop _ _ bd
  skip _ := same_skipLoop _ _ bd
  onAlloc _ _ := Ref.refl _

end BufferedReader

namespace Cursor

theorem same_readInto (n : Nat) : SameB (readInto n) := by
  intro bd; unfold readInto; ref

theorem same_skip (n : Nat) : SameB (skip n) := by
  intro bd; unfold skip; ref

/-- The cursor. -/
theorem refRd (bd : Build) : RefRd (@instReadBytesOfBuild checkedBuild) (@instReadBytesOfBuild bd) where
  readU8 := Ref.refl _
  readU8OrEof := Ref.refl _
  readInto n := same_readInto n bd
  skip n := same_skip n bd
  onAlloc _ _ := Ref.refl _

end Cursor

theorem RefRd.crc8 {I I' : ReadBytes σ} (h : RefRd I I') :
    RefRd (@Crc8Reader.instReadBytes σ I) (@Crc8Reader.instReadBytes σ I') where
  readU8 := by
    refine Sim.bind (Ref.zoom h.readU8) (fun _ => ?_)
    exact Ref.refl _
  readU8OrEof := by
    refine Sim.bind (Ref.zoom h.readU8OrEof) (fun x => ?_)
    exact Ref.refl _
  readInto _ := Ref.refl _
  skip _ := Ref.refl _
  onAlloc _ _ := Ref.refl _

theorem RefRd.crc16 {I I' : ReadBytes σ} (h : RefRd I I') :
    RefRd (@Crc16Reader.instReadBytes σ I) (@Crc16Reader.instReadBytes σ I') where
  readU8 := by
    refine Sim.bind (Ref.zoom h.readU8) (fun _ => ?_)
    exact Ref.refl _
  readU8OrEof := by
    refine Sim.bind (Ref.zoom h.readU8OrEof) (fun x => ?_)
    exact Ref.refl _
  readInto _ := Ref.refl _
  skip _ := Ref.refl _
  onAlloc _ _ := Ref.refl _

macro_rules | `(tactic| ref_rd) => `(tactic| (refine RefRd.crc8 ?_; assumption))
macro_rules | `(tactic| ref_rd) => `(tactic| (refine RefRd.crc16 ?_; assumption))
macro_rules | `(tactic| ref_rd) => `(tactic| (refine RefRd.crc8 (RefRd.crc16 ?_); assumption))

theorem same_readBeU16 : Same σ (τ := σ) (readBeU16) := by
  intro bd I I' h; unfold readBeU16; ref
macro_rules | `(tactic| ref_leaf) => `(tactic| exact same_readBeU16 checkedBuild _ _ (by ref_rd))

theorem same_readBeU24 : Same σ (τ := σ) (readBeU24) := by
  intro bd I I' h; unfold readBeU24; ref
macro_rules | `(tactic| ref_leaf) => `(tactic| exact same_readBeU24 checkedBuild _ _ (by ref_rd))

theorem same_readBeU32 : Same σ (τ := σ) (readBeU32) := by
  intro bd I I' h; unfold readBeU32; ref
macro_rules | `(tactic| ref_leaf) => `(tactic| exact same_readBeU32 checkedBuild _ _ (by ref_rd))

theorem same_readLeU32 : Same σ (τ := σ) (readLeU32) := by
  intro bd I I' h; unfold readLeU32; ref
macro_rules | `(tactic| ref_leaf) => `(tactic| exact same_readLeU32 checkedBuild _ _ (by ref_rd))

theorem same_readBeU16OrEof : Same σ (τ := σ) (readBeU16OrEof) := by
  intro bd I I' h
  unfold readBeU16OrEof
  refine Sim.bind h.readU8OrEof ?_
  rintro (_ | b0)
  · exact Ref.refl _
  · simp only
    refine Sim.bind h.readU8OrEof (fun _ => Ref.refl _)
macro_rules | `(tactic| ref_leaf) => `(tactic| exact same_readBeU16OrEof checkedBuild _ _ (by ref_rd))

/-! ### The bitstream -/

namespace Bitstream

theorem same_readByte : Same σ (τ := Bitstream σ) (readByte) :=
  fun _ _ _ h => Ref.zoom h.readU8
macro_rules | `(tactic| ref_leaf) => `(tactic| exact same_readByte checkedBuild _ _ (by ref_rd))

theorem same_readBit : Same σ (τ := Bitstream σ) (readBit) := by
  intro bd I I' h; unfold readBit; ref
macro_rules | `(tactic| ref_leaf) => `(tactic| exact same_readBit _ _ _ (by ref_rd))

theorem same_readUnaryLoop (n : Nat) : Same σ (τ := Bitstream σ) (readUnaryLoop n) := by
  intro bd I I' h
  dsimp only
  generalize hk : 2 ^ 32 - n = k
  induction k using Nat.strongRecOn generalizing n with
  | ind k ih =>
    rw [@readUnaryLoop.eq_1 σ I checkedBuild, @readUnaryLoop.eq_1 σ I' bd]
    refine Sim.bind (same_readByte bd _ _ h) ?_
    intro fresh
    refine Sim.dite ?_ ?_
    · intro hlt
      refine Sim.dite ?_ ?_
      · intro _
        unfold unaryEnd
        ref
      · intro hz
        exact ih (2 ^ 32 - (n + leadingZeros fresh)) (by omega) _ rfl
    · intro _
      rw [if_pos (show checkedBuild.checked = true from rfl)]
      rintro s t rfl
      exact Or.inr ⟨_, rfl, ⟨_, rfl⟩, fun h => h.elim⟩
macro_rules | `(tactic| ref_leaf) => `(tactic| exact same_readUnaryLoop _ _ _ _ (by ref_rd))

theorem same_readUnary : Same σ (τ := Bitstream σ) (readUnary) := by
  intro bd I I' h; unfold readUnary; ref
macro_rules | `(tactic| ref_leaf) => `(tactic| exact same_readUnary _ _ _ (by ref_rd))

theorem same_readLeqU8Finish (n : Nat) (x : U8) : SameB (τ := Bitstream σ) (readLeqU8Finish n x) := by
  intro bd; unfold readLeqU8Finish; ref
macro_rules | `(tactic| ref_leaf) => `(tactic| exact same_readLeqU8Finish _ _ _)

theorem same_readLeqU8 (n : Nat) : Same σ (τ := Bitstream σ) (readLeqU8 n) := by
  intro bd I I' h; unfold readLeqU8; ref
macro_rules | `(tactic| ref_leaf) => `(tactic| exact same_readLeqU8 _ _ _ _ (by ref_rd))

theorem same_readGtU8LeqU16 (n : Nat) : Same σ (τ := Bitstream σ) (readGtU8LeqU16 n) := by
  intro bd I I' h
  unfold readGtU8LeqU16
  ref
  exact Ref.lift (by same_res)
macro_rules | `(tactic| ref_leaf) => `(tactic| exact same_readGtU8LeqU16 _ _ _ _ (by ref_rd))

theorem same_readLeqU16 (n : Nat) : Same σ (τ := Bitstream σ) (readLeqU16 n) := by
  intro bd I I' h; unfold readLeqU16; ref
macro_rules | `(tactic| ref_leaf) => `(tactic| exact same_readLeqU16 _ _ _ _ (by ref_rd))

theorem same_readLeqU32 (n : Nat) : Same σ (τ := Bitstream σ) (readLeqU32 n) := by
  intro bd I I' h; unfold readLeqU32; ref
macro_rules | `(tactic| ref_leaf) => `(tactic| exact same_readLeqU32 _ _ _ _ (by ref_rd))

end Bitstream

open Bitstream

/-! ### Subframes -/

theorem same_readSubframeHeader : Same σ (τ := Bitstream σ) readSubframeHeader := by
  intro bd I I' h; unfold readSubframeHeader; ref
macro_rules | `(tactic| ref_leaf) => `(tactic| exact same_readSubframeHeader _ _ _ (by ref_rd))

theorem same_ricePartitionSmall (k : Nat) (buf : List I32) :
    Same σ (τ := Bitstream σ) (ricePartitionSmall k buf) := by
  intro bd I I' h
  dsimp only
  induction buf with
  | nil => exact Ref.refl _
  | cons x buf ih => unfold ricePartitionSmall; ref; exact ih
macro_rules | `(tactic| ref_leaf) => `(tactic| exact same_ricePartitionSmall _ _ _ _ _ (by ref_rd))

theorem same_ricePartitionLarge (k : Nat) (buf : List I32) :
    Same σ (τ := Bitstream σ) (ricePartitionLarge k buf) := by
  intro bd I I' h
  dsimp only
  induction buf with
  | nil => exact Ref.refl _
  | cons x buf ih => unfold ricePartitionLarge; ref; exact ih
macro_rules | `(tactic| ref_leaf) => `(tactic| exact same_ricePartitionLarge _ _ _ _ _ (by ref_rd))

theorem same_rice2PartitionLoop (k : Nat) (buf : List I32) :
    Same σ (τ := Bitstream σ) (rice2PartitionLoop k buf) := by
  intro bd I I' h
  dsimp only
  induction buf with
  | nil => exact Ref.refl _
  | cons x buf ih => unfold rice2PartitionLoop; ref; exact ih
macro_rules | `(tactic| ref_leaf) => `(tactic| exact same_rice2PartitionLoop _ _ _ _ _ (by ref_rd))

theorem same_decodeRicePartition (buf : List I32) :
    Same σ (τ := Bitstream σ) (decodeRicePartition buf) := by
  intro bd I I' h; unfold decodeRicePartition; ref
macro_rules | `(tactic| ref_leaf) => `(tactic| exact same_decodeRicePartition _ _ _ _ (by ref_rd))

theorem same_decodeRice2Partition (buf : List I32) :
    Same σ (τ := Bitstream σ) (decodeRice2Partition buf) := by
  intro bd I I' h; unfold decodeRice2Partition; ref
macro_rules | `(tactic| ref_leaf) => `(tactic| exact same_decodeRice2Partition _ _ _ _ (by ref_rd))

theorem same_partitionLoop (ptype : RicePartitionType) (nspp n start len : Nat) (buffer : List I32) :
    Same σ (τ := Bitstream σ) (partitionLoop ptype nspp n start len buffer) := by
  intro bd I I' h
  dsimp only
  induction n generalizing start len buffer with
  | zero => exact Ref.refl _
  | succ n ih =>
    unfold partitionLoop
    refine Sim.bind (Ref.withSlice _ _ _ ?_) (fun _ => ih _ _ _)
    intro s
    cases ptype <;> simp only <;> ref
macro_rules | `(tactic| ref_leaf) => `(tactic| exact same_partitionLoop _ _ _ _ _ _ _ _ _ (by ref_rd))

theorem same_decodeResidual (bs : Nat) (buffer : List I32) :
    Same σ (τ := Bitstream σ) (decodeResidual bs buffer) := by
  intro bd I I' h
  unfold decodeResidual
  ref
  all_goals exact Ref.lift (by same_res)
macro_rules | `(tactic| ref_leaf) => `(tactic| exact same_decodeResidual _ _ _ _ _ (by ref_rd))

theorem same_decodeConstant (bps : Nat) (buffer : List I32) :
    Same σ (τ := Bitstream σ) (decodeConstant bps buffer) := by
  intro bd I I' h; unfold decodeConstant; ref
macro_rules | `(tactic| ref_leaf) => `(tactic| exact same_decodeConstant _ _ _ _ _ (by ref_rd))

theorem same_verbatimLoop (bps : Nat) (buffer : List I32) :
    Same σ (τ := Bitstream σ) (verbatimLoop bps buffer) := by
  intro bd I I' h
  dsimp only
  induction buffer with
  | nil => exact Ref.refl _
  | cons x buffer ih => unfold verbatimLoop; ref; exact ih
macro_rules | `(tactic| ref_leaf) => `(tactic| exact same_verbatimLoop _ _ _ _ _ (by ref_rd))

theorem same_decodeVerbatim (bps : Nat) (buffer : List I32) :
    Same σ (τ := Bitstream σ) (decodeVerbatim bps buffer) := by
  intro bd I I' h; unfold decodeVerbatim; ref
macro_rules | `(tactic| ref_leaf) => `(tactic| exact same_decodeVerbatim _ _ _ _ _ (by ref_rd))

macro_rules | `(tactic| ref_leaf) => `(tactic| (refine Ref.withSlice _ _ _ ?_; intro _; ref_leaf))

theorem same_decodeFixed (bps order : Nat) (buffer : List I32) :
    Same σ (τ := Bitstream σ) (decodeFixed bps order buffer) := by
  intro bd I I' h; unfold decodeFixed; ref
macro_rules | `(tactic| ref_leaf) => `(tactic| exact same_decodeFixed _ _ _ _ _ _ (by ref_rd))

theorem same_readCoefficients (prec n : Nat) (arr : List I16) :
    Same σ (τ := Bitstream σ) (readCoefficients prec n arr) := by
  intro bd I I' h
  dsimp only
  induction n generalizing arr with
  | zero => exact Ref.refl _
  | succ n ih => unfold readCoefficients; ref; exact ih _
macro_rules | `(tactic| ref_leaf) => `(tactic| exact same_readCoefficients _ _ _ _ _ _ (by ref_rd))

theorem same_decodeLpc (bps order : Nat) (buffer : List I32) :
    Same σ (τ := Bitstream σ) (decodeLpc bps order buffer) := by
  intro bd I I' h; unfold decodeLpc; ref
macro_rules | `(tactic| ref_leaf) => `(tactic| exact same_decodeLpc _ _ _ _ _ _ (by ref_rd))

theorem same_decodeSubframe (bps : Nat) (buffer : List I32) :
    Same σ (τ := Bitstream σ) (decodeSubframe bps buffer) := by
  intro bd I I' h
  unfold decodeSubframe
  refine Sim.bind (by ref_leaf) (fun _ => Sim.bind (by ref_leaf) (fun header => ?_))
  refine Sim.ite (fun _ => by ref_leaf) (fun _ => Sim.bind ?_ ?_)
  · rcases header.sfType with _ | _ | ord | ord <;> simp only <;> ref
  · ref
macro_rules | `(tactic| ref_leaf) => `(tactic| exact same_decodeSubframe _ _ _ _ _ (by ref_rd))

/-! ### Frames -/

theorem same_varLengthLoop (n : Nat) (x : U64) : Same σ (τ := σ) (varLengthLoop n x) := by
  intro bd I I' h
  dsimp only
  induction n generalizing x with
  | zero => exact Ref.refl _
  | succ n ih => unfold varLengthLoop; ref; exact ih _
macro_rules | `(tactic| ref_leaf) => `(tactic| exact same_varLengthLoop _ _ _ _ _ (by ref_rd))

theorem same_readVarLengthInt : Same σ (τ := σ) readVarLengthInt := by
  intro bd I I' h; unfold readVarLengthInt; ref
macro_rules | `(tactic| ref_leaf) => `(tactic| exact same_readVarLengthInt _ _ _ (by ref_rd))

theorem same_readBlockTime (v : Bool) : Same σ (τ := σ) (readBlockTime v) := by
  intro bd I I' h; unfold readBlockTime; ref
macro_rules | `(tactic| ref_leaf) => `(tactic| exact same_readBlockTime _ _ _ _ (by ref_rd))

theorem same_readBlockSize (c : BlockSizeCode) : Same σ (τ := σ) (readBlockSize c) := by
  intro bd I I' h; cases c <;> unfold readBlockSize <;> ref
macro_rules | `(tactic| ref_leaf) => `(tactic| exact same_readBlockSize _ _ _ _ (by ref_rd))

theorem same_readSampleRate (c : SampleRateCode) : Same σ (τ := σ) (readSampleRate c) := by
  intro bd I I' h; cases c <;> unfold readSampleRate <;> ref
macro_rules | `(tactic| ref_leaf) => `(tactic| exact same_readSampleRate _ _ _ _ (by ref_rd))

theorem same_blockSizeCode (n : Nat) : SameB (τ := σ) (blockSizeCode n) := by
  intro bd; unfold blockSizeCode; ref
macro_rules | `(tactic| ref_leaf) => `(tactic| exact same_blockSizeCode _ _)

theorem same_channelAssignmentCode (n : Nat) : SameB (τ := σ) (channelAssignmentCode n) := by
  intro bd; unfold channelAssignmentCode; ref
macro_rules | `(tactic| ref_leaf) => `(tactic| exact same_channelAssignmentCode _ _)

theorem same_readFrameHeaderBody : Same σ (τ := Crc8Reader σ) readFrameHeaderBody := by
  intro bd I I' h
  unfold readFrameHeaderBody
  refine Sim.bind (by ref_leaf) ?_
  rintro (_ | sync)
  · exact Ref.refl _
  · simp only
    ref

theorem same_readFrameHeaderOrEof : Same σ (τ := σ) readFrameHeaderOrEof :=
  fun bd _ _ h => Ref.withCrc8 (same_readFrameHeaderBody bd _ _ h)
macro_rules | `(tactic| ref_leaf) => `(tactic| exact same_readFrameHeaderOrEof _ _ _ (by ref_rd))

theorem same_decodeIndependent (bps bs n ch : Nat) (buffer : List I32) :
    Same σ (τ := Bitstream σ) (decodeIndependent bps bs n ch buffer) := by
  intro bd I I' h
  dsimp only
  induction n generalizing ch buffer with
  | zero => exact Ref.refl _
  | succ n ih => unfold decodeIndependent; ref; exact ih _ _
macro_rules | `(tactic| ref_leaf) => `(tactic| exact same_decodeIndependent _ _ _ _ _ _ _ _ (by ref_rd))

theorem same_decodeChannels (ca : ChannelAssignment) (bps bs : Nat) (buffer : List I32) :
    Same σ (τ := Bitstream σ) (decodeChannels ca bps bs buffer) := by
  intro bd I I' h; cases ca <;> unfold decodeChannels <;> simp only <;> ref
macro_rules
  | `(tactic| ref_leaf) =>
    `(tactic| exact Ref.withBitstream (same_decodeChannels _ _ _ _ _ _ _ (by ref_rd)))

theorem same_readFrameBody (hd : FrameHeader) (buffer : VecI32) :
    Same σ (τ := Crc16Reader σ) (readFrameBody hd buffer) := by
  intro bd I I' h
  unfold readFrameBody
  rcases hd.bitsPerSample with _ | bps <;> simp only <;> ref

theorem same_readNextOrEof (buffer : VecI32) : Same σ (τ := σ) (readNextOrEof buffer) := by
  intro bd I I' h
  refine Ref.withCrc16 (Sim.bind (by ref_leaf) ?_)
  rintro (_ | hd)
  · exact Ref.refl _
  · exact same_readFrameBody hd buffer bd _ _ h
macro_rules | `(tactic| ref_leaf) => `(tactic| exact same_readNextOrEof _ _ _ _ (by ref_rd))

/-! ### Metadata -/

theorem same_readMetadataBlockHeader : Same σ (τ := σ) readMetadataBlockHeader := by
  intro bd I I' h; unfold readMetadataBlockHeader; ref
macro_rules | `(tactic| ref_leaf) => `(tactic| exact same_readMetadataBlockHeader checkedBuild _ _ (by ref_rd))

theorem same_readStreaminfoBlock : Same σ (τ := σ) readStreaminfoBlock := by
  intro bd I I' h; unfold readStreaminfoBlock; ref
macro_rules | `(tactic| ref_leaf) => `(tactic| exact same_readStreaminfoBlock _ _ _ (by ref_rd))

theorem same_commentsLoop (left n : Nat) (comments : List (Str × Nat)) :
    Same σ (τ := σ) (commentsLoop left n comments) := by
  intro bd I I' h
  dsimp only
  induction left using Nat.strongRecOn generalizing n comments with
  | ind left ih =>
    rw [@commentsLoop_eq σ I, @commentsLoop_eq σ I']
    refine Sim.dite (fun hlt => ?_) (fun _ => Ref.refl _)
    refine Sim.bind (by ref_leaf) (fun k => Sim.ite (fun _ => Ref.refl _) (fun _ => Sim.ite (fun _ => ?_)
      (fun _ => ?_)))
    · exact ih _ (by omega) _ _
    · refine Sim.bind (by ref_leaf) (fun _ => Sim.bind (by ref_leaf) (fun _ => Sim.bind (Ref.refl _)
        (fun _ => ?_)))
      exact ih _ (by omega) _ _
macro_rules | `(tactic| ref_leaf) => `(tactic| exact same_commentsLoop _ _ _ _ _ _ (by ref_rd))

theorem same_readVorbisCommentBlock (n : Nat) : Same σ (τ := σ) (readVorbisCommentBlock n) := by
  intro bd I I' h; unfold readVorbisCommentBlock; ref
macro_rules | `(tactic| ref_leaf) => `(tactic| exact same_readVorbisCommentBlock _ _ _ _ (by ref_rd))

theorem same_readPaddingBlock (n : Nat) : Same σ (τ := σ) (readPaddingBlock n) :=
  fun _ _ _ h => h.skip n
macro_rules | `(tactic| ref_leaf) => `(tactic| exact same_readPaddingBlock _ checkedBuild _ _ (by ref_rd))

theorem same_readApplicationBlock (n : Nat) : Same σ (τ := σ) (readApplicationBlock n) := by
  intro bd I I' h; unfold readApplicationBlock; ref
macro_rules | `(tactic| ref_leaf) => `(tactic| exact same_readApplicationBlock _ _ _ _ (by ref_rd))

theorem same_readMetadataBlock (ty : U8) (n : Nat) : Same σ (τ := σ) (readMetadataBlock ty n) := by
  intro bd I I' h; unfold readMetadataBlock; ref
macro_rules | `(tactic| ref_leaf) => `(tactic| exact same_readMetadataBlock _ _ _ _ _ (by ref_rd))

theorem same_readMetadataBlockWithHeader : Same σ (τ := σ) readMetadataBlockWithHeader := by
  intro bd I I' h; unfold readMetadataBlockWithHeader; ref
macro_rules | `(tactic| ref_leaf) => `(tactic| exact same_readMetadataBlockWithHeader _ _ _ (by ref_rd))

macro_rules | `(tactic| ref_leaf) => `(tactic| (refine Ref.zoom ?_; ref_leaf))

theorem same_readNext : Same σ (τ := MetadataBlockReader σ) MetadataBlockReader.readNext := by
  intro bd I I' h; unfold MetadataBlockReader.readNext MetadataBlockReader.onInput; ref

theorem same_metadataNext : Same σ (τ := MetadataBlockReader σ) MetadataBlockReader.next := by
  intro bd I I' h
  unfold MetadataBlockReader.next
  refine Ref.get (fun r => Sim.ite (fun _ => Ref.refl _) (fun _ => ?_))
  exact Sim.bind (Ref.catchErr (same_readNext bd _ _ h)) (fun _ => Ref.refl _)
macro_rules | `(tactic| ref_leaf) => `(tactic| exact same_metadataNext _ _ _ (by ref_rd))

/-! ### Streams -/

theorem same_readStreamHeader : Same σ (τ := σ) readStreamHeader := by
  intro bd I I' h; unfold readStreamHeader; ref

theorem same_metadataLoop (fuel : Nat) (opts : FlacReaderOptions) (vc : Option VorbisComment) :
    Same σ (τ := MetadataBlockReader σ) (metadataLoop fuel opts vc) := by
  intro bd I I' h
  dsimp only
  induction fuel generalizing opts vc with
  | zero => exact Ref.refl _
  | succ fuel ih =>
    unfold metadataLoop
    refine Sim.bind (by ref_leaf) ?_
    rintro (_ | _ | b)
    · exact Ref.refl _
    · exact Ref.refl _
    · cases b <;> simp only <;> ref <;> exact ih _ _

theorem same_readMetadata (fuel : Nat) (opts : FlacReaderOptions) :
    Same σ (τ := MetadataBlockReader σ) (readMetadata fuel opts) := by
  intro bd I I' h
  unfold readMetadata
  refine Sim.bind (by ref_leaf) ?_
  rintro (_ | _ | b)
  · exact Ref.refl _
  · exact Ref.refl _
  · cases b <;> simp only <;> ref
    exact same_metadataLoop _ _ _ bd _ _ h

theorem same_openStream (fuel : Nat) (opts : FlacReaderOptions) :
    Same σ (τ := σ) (openStream fuel opts) := by
  intro bd I I' h
  unfold openStream
  refine Sim.bind (same_readStreamHeader bd _ _ h) (fun _ => ?_)
  rintro s t rfl
  rcases same_readMetadata fuel opts bd _ _ h (MetadataBlockReader.new s) _ rfl with
    ⟨h1, h2⟩ | ⟨f, h1, h2, h3⟩
  · exact Or.inl ⟨h1, congrArg MetadataBlockReader.input h2⟩
  · exact Or.inr ⟨f, h1, h2, h3⟩

theorem same_newExtGen (fuel : Nat) (r : σ) (opts : FlacReaderOptions) (bd : Build)
    {I I' : ReadBytes σ} (h : RefRd I I') :
    RefR (@FlacReader.newExtGen checkedBuild σ I fuel r opts) (@FlacReader.newExtGen bd σ I' fuel r opts) := by
  unfold FlacReader.newExtGen
  have h1 := same_openStream fuel opts bd _ _ h r _ rfl
  dsimp only at h1
  generalize @openStream σ I checkedBuild fuel opts r = x at h1 ⊢
  generalize @openStream σ I' bd fuel opts r = y at h1 ⊢
  rcases x with ⟨e, s⟩
  rcases y with ⟨e', s'⟩
  rcases h1 with ⟨h1, h2⟩ | ⟨f, h1, ⟨p, rfl⟩, -⟩
  · obtain rfl : e = e' := h1
    obtain rfl : s = s' := h2
    exact .refl _
  · obtain rfl : e = _ := h1
    exact .inl ⟨p, rfl⟩

/-! ### Iterators -/

theorem same_current [Target] : Same σ (τ := FlacSamples σ) FlacSamples.current := by
  intro bd I I' h; unfold FlacSamples.current; ref
macro_rules | `(tactic| ref_leaf) => `(tactic| exact same_current _ _ _ (by ref_rd))

theorem same_nextBlock [Target] : Same σ (τ := FlacSamples σ) FlacSamples.nextBlock := by
  intro bd I I' h
  unfold FlacSamples.nextBlock
  refine Ref.get (fun it => Sim.bind (Ref.refl _) (fun _ => ?_))
  refine Sim.bind (Ref.catchErr (Ref.zoom (same_readNextOrEof _ bd _ _ h))) (fun x => ?_)
  rcases x with e | _ | b <;> simp only <;> ref
macro_rules | `(tactic| ref_leaf) => `(tactic| exact same_nextBlock _ _ _ (by ref_rd))

theorem same_samplesNext [Target] : Same σ (τ := FlacSamples σ) FlacSamples.next := by
  intro bd I I' h; unfold FlacSamples.next; ref

theorem same_stereoNext [Target] : SameB StereoSamples.next := by
  intro bd; unfold StereoSamples.next; ref

end Claxon
