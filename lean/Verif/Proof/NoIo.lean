import Verif.Spec.Checked
import Verif.Model.Subframe
import Verif.Model.Frame

/-! Computations without a reader do not fail with an I/O error. -/

namespace Claxon

/-- The result is not an I/O error. -/
class NoIo {α : Type} (r : Except Fail α) : Prop where
  out : ∀ e, r ≠ .error (.err (.ioError e))

namespace NoIo

variable {α β : Type}

instance ok (a : α) : NoIo (.ok a : Except Fail α) := ⟨nofun⟩

instance pure (a : α) : NoIo (Pure.pure a : Res α) := ⟨nofun⟩

instance panic (p : Panic) : NoIo (.error (.panic p) : Except Fail α) := ⟨nofun⟩

instance ub : NoIo (.error .ub : Except Fail α) := ⟨nofun⟩

instance diverged : NoIo (.error .diverged : Except Fail α) := ⟨nofun⟩

instance format (msg : String) : NoIo (.error (.err (.formatError msg)) : Except Fail α) := ⟨nofun⟩

instance unsupported (msg : String) : NoIo (.error (.err (.unsupported msg)) : Except Fail α) := ⟨nofun⟩

theorem cast {f : Fail} (h : NoIo (.error f : Except Fail α)) : NoIo (.error f : Except Fail β) :=
  ⟨fun e he => h.out e (by cases he; rfl)⟩

instance bind (r : Res α) (f : α → Res β) [h : NoIo r] [h' : ∀ a, NoIo (f a)] : NoIo (r >>= f) := by
  rcases r with e | a
  · exact h.cast
  · exact h' a

instance ite (c : Prop) [Decidable c] (r r' : Except Fail α) [h : NoIo r] [h' : NoIo r'] :
    NoIo (if c then r else r') := by
  by_cases hc : c
  · rw [if_pos hc]; exact h
  · rw [if_neg hc]; exact h'

instance dite (c : Prop) [Decidable c] (r : c → Except Fail α) (r' : ¬ c → Except Fail α) [h : ∀ p, NoIo (r p)]
    [h' : ∀ p, NoIo (r' p)] : NoIo (if p : c then r p else r' p) := by
  by_cases hc : c
  · rw [dif_pos hc]; exact h hc
  · rw [dif_neg hc]; exact h' hc

instance panicRes (p : Panic) : NoIo (Claxon.panicRes p : Res α) := .panic p

instance orPanic (p : Panic) (v : α) : NoIo (Claxon.orPanic p v) := by unfold Claxon.orPanic; infer_instance

instance addU (w a b : Nat) : NoIo (Claxon.addU w a b) := by unfold Claxon.addU; infer_instance

instance subU (w a b : Nat) : NoIo (Claxon.subU w a b) := by unfold Claxon.subU; infer_instance

instance mulU (w a b : Nat) : NoIo (Claxon.mulU w a b) := by unfold Claxon.mulU; infer_instance

instance shl {w : Nat} (x : BitVec w) (s : Nat) : NoIo (Claxon.shl x s) := by unfold Claxon.shl; infer_instance

instance shr {w : Nat} (x : BitVec w) (s : Nat) : NoIo (Claxon.shr x s) := by unfold Claxon.shr; infer_instance

instance sar {w : Nat} (x : BitVec w) (s : Nat) : NoIo (Claxon.sar x s) := by unfold Claxon.sar; infer_instance

instance addI64 (a b : I64) : NoIo (Claxon.addI64 a b) := by unfold Claxon.addI64; infer_instance

instance mulI64 (a b : I64) : NoIo (Claxon.mulI64 a b) := by unfold Claxon.mulI64; infer_instance

instance debugAssert (c : Bool) : NoIo (Claxon.debugAssert c) := by unfold Claxon.debugAssert; infer_instance

instance index (xs : List α) (i : Nat) : NoIo (Claxon.index xs i) := by
  unfold Claxon.index; cases xs[i]? <;> infer_instance

instance setIndex (xs : List α) (i : Nat) (v : α) : NoIo (Claxon.setIndex xs i v) := by
  unfold Claxon.setIndex; infer_instance

instance slice (xs : List α) (a b : Nat) : NoIo (Claxon.slice xs a b) := by
  unfold Claxon.slice; infer_instance

instance shiftLeft (x : U8) (s : Nat) : NoIo (Claxon.shiftLeft x s) := by unfold Claxon.shiftLeft; infer_instance

instance shiftRight (x : U8) (s : Nat) : NoIo (Claxon.shiftRight x s) := by unfold Claxon.shiftRight; infer_instance

instance maskU8 (n : Nat) : NoIo (Bitstream.maskU8 n) := by unfold Bitstream.maskU8; infer_instance

instance blockNew (time bs : Nat) (buffer : VecI32) : NoIo (Block.new time bs buffer) := by
  unfold Block.new; infer_instance

instance frameTime (h : FrameHeader) : NoIo (Claxon.frameTime h) := by
  unfold Claxon.frameTime; cases h.blockTime <;> infer_instance

instance extendSignU16 (v : U16) (n : Nat) : NoIo (Claxon.extendSignU16 v n) := by
  unfold Claxon.extendSignU16; infer_instance

instance extendSignU32 (v : U32) (n : Nat) : NoIo (Claxon.extendSignU32 v n) := by
  unfold Claxon.extendSignU32; infer_instance

instance fixedCoefficients (n : Nat) : NoIo (Claxon.fixedCoefficients n) := by
  unfold Claxon.fixedCoefficients; split <;> infer_instance

instance predictFixedLoop (cs : List I32) (w : Nat) : ∀ (n i : Nat) (buffer : List I32),
    NoIo (Claxon.predictFixedLoop cs w n i buffer)
  | 0, _, _ => by unfold Claxon.predictFixedLoop; infer_instance
  | n + 1, i, buffer => by
    have := predictFixedLoop cs w n
    unfold Claxon.predictFixedLoop; infer_instance

instance predictFixed (order : Nat) (buffer : List I32) : NoIo (Claxon.predictFixed order buffer) := by
  unfold Claxon.predictFixed; infer_instance

instance innerProduct : ∀ (xs : List (I64 × I64)) (acc : I64), NoIo (Claxon.innerProduct xs acc)
  | [], _ => by unfold Claxon.innerProduct; infer_instance
  | (c, s) :: xs, acc => by
    have := innerProduct xs
    unfold Claxon.innerProduct; infer_instance

instance sarI16 (x : I64) (s : I16) : NoIo (Claxon.sarI16 x s) := by unfold Claxon.sarI16; infer_instance

instance lpcSample (cs : List I64) (w : List I32) (s : I16) (d : I32) : NoIo (Claxon.lpcSample cs w s d) := by
  unfold Claxon.lpcSample; infer_instance

instance lpcLoop (cs : List I64) (s : I16) (k : Nat) : ∀ (n i : Nat) (buffer : List I32),
    NoIo (Claxon.lpcLoop cs s k n i buffer)
  | 0, _, _ => by unfold Claxon.lpcLoop; infer_instance
  | n + 1, i, buffer => by
    have := lpcLoop cs s k n
    unfold Claxon.lpcLoop; infer_instance

instance padCoefficients : ∀ (raw : List I16) (i : Nat) (buf : List I64), NoIo (Claxon.padCoefficients raw i buf)
  | [], _, _ => by unfold Claxon.padCoefficients; infer_instance
  | c :: cs, i, buf => by
    have := padCoefficients cs
    unfold Claxon.padCoefficients; infer_instance

instance predictLpcLowOrder (raw : List I16) (s : I16) (buffer : List I32) :
    NoIo (Claxon.predictLpcLowOrder raw s buffer) := by 
  unfold Claxon.predictLpcLowOrder
  dsimp only
  refine @bind _ _ _ _ _ fun _ => @bind _ _ _ _ _ fun _ => @bind _ _ _ _ _ fun _ => @bind _ _ _ _ _ fun _ => ?_
  infer_instance

instance predictLpcHighOrder (raw : List I16) (s : I16) (buffer : List I32) :
    NoIo (Claxon.predictLpcHighOrder raw s buffer) := by unfold Claxon.predictLpcHighOrder; dsimp only; infer_instance

end NoIo

end Claxon
