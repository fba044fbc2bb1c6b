import Verif.Model.Lib

/-! # Users of the library

What a user of the library can do with a reader, and what they observe. -/

namespace Spec

open Claxon ReadBytes

/-- The operations on a reader. -/
inductive Op where
  | readU8
  | readU8OrEof
  | readBeU16
  | readBeU16OrEof
  | readBeU24
  | readBeU32
  | readLeU32
  | readInto (n : Nat)
  | skip (n : Nat)
  /-- `FrameReader::read_next_or_eof` -/
  | frame (buffer : VecI32)
  /-- `metadata::read_metadata_block` -/
  | metadataBlock (blockType : U8) (length : Nat)
  /-- `metadata::read_metadata_block_with_header` -/
  | metadataBlockWithHeader
  deriving DecidableEq, Repr

/-- What an operation returns. -/
inductive Out where
  | byte (b : U8)
  | byteOrEof (b : Option U8)
  | u16 (v : U16)
  | u16OrEof (v : Option U16)
  | u32 (v : U32)
  | bytes (bs : List U8)
  | done
  | block (b : Option Block)
  | metadata (b : MetadataBlock)
  deriving DecidableEq, Repr

/-- The arguments have the types that they have in Rust: a `u32`, or the length of a slice. -/
def Op.WellTyped : Op → Prop
  | .readInto n => n < 2 ^ 63
  | .skip n => n < 2 ^ 32
  | .metadataBlock _ n => n < 2 ^ 32
  | _ => True

/-- Perform an operation. -/
def Op.run [FuzzCfg] [Build] {σ : Type} [ReadBytes σ] : Op → Dec σ Out
  | .readU8 => do
    let b ← ReadBytes.readU8
    pure (.byte b)
  | .readU8OrEof => do
    let b ← ReadBytes.readU8OrEof
    pure (.byteOrEof b)
  | .readBeU16 => do
    let v ← Claxon.readBeU16
    pure (.u16 v)
  | .readBeU16OrEof => do
    let v ← Claxon.readBeU16OrEof
    pure (.u16OrEof v)
  | .readBeU24 => do
    let v ← Claxon.readBeU24
    pure (.u32 v)
  | .readBeU32 => do
    let v ← Claxon.readBeU32
    pure (.u32 v)
  | .readLeU32 => do
    let v ← Claxon.readLeU32
    pure (.u32 v)
  | .readInto n => do
    let bs ← ReadBytes.readInto n
    pure (.bytes bs)
  | .skip n => do
    ReadBytes.skip n
    pure .done
  | .frame buffer => do
    let b ← readNextOrEof buffer
    pure (.block b)
  | .metadataBlock blockType length => do
    let b ← readMetadataBlock blockType length
    pure (.metadata b)
  | .metadataBlockWithHeader => do
    let b ← readMetadataBlockWithHeader
    pure (.metadata b)

/-- The call returned a value or an error; it did not panic, run into undefined behaviour or diverge. -/
def Returns {α : Type} (x : Except Fail α) : Prop := (∃ a, x = .ok a) ∨ ∃ e, x = .error (.err e)

/-- The call returned a value or an error, or it panicked with an arithmetic overflow. -/
def ReturnsOrOverflows {α : Type} (x : Except Fail α) : Prop := Returns x ∨ x = .error (.panic .overflow)

/-- Whether a call failed with an I/O error. -/
def IsIoError {α : Type} : Except Fail α → Bool
  | .error (.err (.ioError _)) => true
  | _ => false

/-- The results of a sequence of operations, up to the first I/O error. -/
def runOps [FuzzCfg] [Build] {σ : Type} [ReadBytes σ] : List Op → σ → List (Except Fail Out)
  | [], _ => []
  | op :: ops, s =>
    if IsIoError (op.run s).1 then [(op.run s).1] else (op.run s).1 :: runOps ops (op.run s).2

/-- The results of `n` calls of `m`. -/
def calls {σ α : Type} (m : Dec σ α) : (n : Nat) → σ → List (Except Fail α)
  | 0, _ => []
  | n + 1, s => (m s).1 :: calls m n (m s).2

/-- The state after `n` calls, whatever they returned. -/
def after {σ α : Type} (m : Dec σ α) : (n : Nat) → σ → σ
  | 0, s => s
  | n + 1, s => after m n (m s).2

/-- What `size_hint` of an iterator returns is right: the next `hint.1` calls of `next` yield items, and after as
many calls as the upper bound says, if there is one, there are no more. -/
structure HintHolds {σ α : Type} (next : Dec σ (Option α)) (s : σ) (hint : Nat × Option Nat) : Prop where
  lower : ∀ x ∈ calls next hint.1 s, ∃ a, x = .ok (some a)
  upper : ∀ h ∈ hint.2, ∀ n, calls next n (after next h s) = List.replicate n (.ok none)

section

variable {σ : Type} [ReadBytes σ]

/-- Open a stream, and look at the metadata. -/
def openSession [Build] (fuel : Nat) (options : FlacReaderOptions) (r : σ) :
    Res (StreamInfo × Option VorbisComment) := do
  let reader ← FlacReader.newExtGen fuel r options
  pure (reader.streaminfo, reader.vorbisComment)

/-- Open a stream, and call `next` on the sample iterator `n` times. -/
def sampleSession [FuzzCfg] [Build] [Target] (fuel : Nat) (options : FlacReaderOptions) (n : Nat) (r : σ) :
    Res (List (Except Fail (Option (Except Error I32)))) := do
  let reader ← FlacReader.newExtGen fuel r options
  let samples ← reader.samples
  pure (calls FlacSamples.next n samples)

/-- Open a stream, and perform operations on the frame reader. -/
def blockSession [FuzzCfg] [Build] (fuel : Nat) (options : FlacReaderOptions) (ops : List Op) (r : σ) :
    Res (List (Except Fail Out)) := do
  let reader ← FlacReader.newExtGen fuel r options
  let frames ← reader.blocks
  pure (runOps ops frames)

end

end Spec
