import Verif.Spec.Bits

/-! # Subframes of the FLAC format

What an encoder may write for one channel of a frame: a description of the subframe, the bits that the
format prescribes for it, and the samples that it denotes. Everything is over unbounded integers and
independent of the decoder. Not covered are residual partitions in the escape coding, which claxon does
not support. -/

namespace Spec

/-- Folding of signed residuals to natural numbers: 0, -1, 1, -2, 2, … ↦ 0, 1, 2, 3, 4, … -/
def fold (r : Int) : Nat := if 0 ≤ r then (2 * r).toNat else (-2 * r - 1).toNat

/-- The inverse of `fold`. -/
def unfold (u : Nat) : Int := if u % 2 = 0 then (u / 2 : Nat) else -((u / 2 : Nat) : Int) - 1

/-- The Rice code of the residual `r` with parameter `k`: the quotient of the folded residual by `2 ^ k`
in unary, then the remainder in `k` bits. -/
def riceBits (k : Nat) (r : Int) : List Bool :=
  unaryBits (fold r / 2 ^ k) ++ natToBits k (fold r % 2 ^ k)

/-- The two residual coding methods, which differ in the width of the Rice parameters. -/
inductive RiceMethod where
  | rice
  | rice2
  deriving DecidableEq, Repr

/-- The two-bit code of the method. -/
def RiceMethod.code : RiceMethod → Nat
  | .rice => 0
  | .rice2 => 1

/-- The number of bits of a Rice parameter. -/
def RiceMethod.paramBits : RiceMethod → Nat
  | .rice => 4
  | .rice2 => 5

/-- The largest Rice parameter (all ones is the escape code). -/
def RiceMethod.maxParam : RiceMethod → Nat
  | .rice => 14
  | .rice2 => 30

/-- A partition of the residual: the Rice parameter and the residuals. -/
structure Partition where
  param : Nat
  values : List Int
  deriving DecidableEq, Repr

/-- A coded residual. -/
structure Residual where
  method : RiceMethod
  partitionOrder : Nat
  partitions : List Partition
  deriving DecidableEq, Repr

/-- The residuals of all partitions. -/
def Residual.values (r : Residual) : List Int := r.partitions.flatMap Partition.values

/-- The bits of a partition. -/
def Partition.bits (m : RiceMethod) (p : Partition) : List Bool :=
  natToBits m.paramBits p.param ++ p.values.flatMap (riceBits p.param)

/-- The bits of a residual. -/
def Residual.bits (r : Residual) : List Bool :=
  natToBits 2 r.method.code ++ natToBits 4 r.partitionOrder ++
    r.partitions.flatMap (Partition.bits r.method)

/-- The number of samples of the partitions, when there are `blockSize` samples in the block, of which
`order` are warm-up samples, taken from the first partition. -/
def partitionSizes (blockSize order partitionOrder : Nat) : List Nat :=
  (blockSize / 2 ^ partitionOrder - order) ::
    List.replicate (2 ^ partitionOrder - 1) (blockSize / 2 ^ partitionOrder)

/-- The structural requirements on a residual. -/
structure Residual.WellFormed (r : Residual) (blockSize order : Nat) : Prop where
  partitionOrder : r.partitionOrder ≤ 15
  divides : blockSize % 2 ^ r.partitionOrder = 0
  first : order ≤ blockSize / 2 ^ r.partitionOrder
  params : ∀ p ∈ r.partitions, p.param ≤ r.method.maxParam
  sizes : r.partitions.map (fun p => p.values.length) = partitionSizes blockSize order r.partitionOrder
  /-- the runs of zeros in the unary codes are shorter than 2^32 -/
  quotients : ∀ p ∈ r.partitions, ∀ v ∈ p.values, fold v / 2 ^ p.param < 2 ^ 32

/-- Whether `v` is a `k`-bit two's complement number. -/
def FitsIn (k : Nat) (v : Int) : Prop := -2 ^ (k - 1) ≤ v ∧ v < 2 ^ (k - 1) ∧ 0 < k

instance (k : Nat) (v : Int) : Decidable (FitsIn k v) := by unfold FitsIn; infer_instance

/-- Residuals must fit in 32 bits. -/
def Residual.InRange (r : Residual) : Prop := ∀ v ∈ r.values, FitsIn 32 v

/-! ### Prediction -/

/-- The integers the samples are computed in: `wrap` is applied to every computed sample, `residual` to
every residual. -/
structure Arith where
  wrap : Int → Int
  residual : Int → Int

/-- Exact arithmetic, which is what the format prescribes. -/
def Arith.exact : Arith := { wrap := id, residual := id }

/-- Two's complement arithmetic in 32 bits; folded residuals are truncated to 32 bits. -/
def Arith.wrap32 : Arith :=
  { wrap := fun v => v.bmod (2 ^ 32), residual := fun r => unfold (fold r % 2 ^ 32) }

/-- The sample `past[i]`, `i` steps before the last one; 0 if there is none. -/
def ago (past : List Int) (i : Nat) : Int := past.getD i 0

/-- The fixed predictor of order `order`, from the past samples, most recent first. -/
def fixedPrediction (order : Nat) (past : List Int) : Int :=
  match order with
  | 0 => 0
  | 1 => ago past 0
  | 2 => 2 * ago past 0 - ago past 1
  | 3 => 3 * ago past 0 - 3 * ago past 1 + ago past 2
  | _ => 4 * ago past 0 - 6 * ago past 1 + 4 * ago past 2 - ago past 3

/-- The linear predictor with the given coefficients (the first one is for the most recent sample); the
sum is divided by `2 ^ shift`, rounding down. -/
def linearPrediction (coefs : List Int) (shift : Nat) (past : List Int) : Int :=
  (List.zipWith (· * ·) coefs past).sum / 2 ^ shift

/-- Reconstruct samples from residuals: every sample is the prediction from the past samples (most recent
first) plus the residual. -/
def reconstruct (A : Arith) (predict : List Int → Int) : (past : List Int) → List Int → List Int
  | _, [] => []
  | past, r :: rs =>
    let s := A.wrap (predict past + A.residual r)
    s :: reconstruct A predict (s :: past) rs

/-! ### Subframes -/

/-- The four ways to code a subframe. -/
inductive Coding where
  | constant (v : Int)
  | verbatim (vs : List Int)
  | fixed (warmUp : List Int) (residual : Residual)
  | lpc (warmUp : List Int) (precision shift : Nat) (coefs : List Int) (residual : Residual)
  deriving DecidableEq, Repr

/-- A subframe: the coding, and the number of wasted bits per sample. -/
structure Subframe where
  coding : Coding
  wasted : Nat
  deriving DecidableEq, Repr

/-- The six-bit type code. The order of the predictor is the number of warm-up samples. -/
def Coding.typeCode : Coding → Nat
  | .constant _ => 0
  | .verbatim _ => 1
  | .fixed warmUp _ => 8 + warmUp.length
  | .lpc warmUp _ _ _ _ => 32 + (warmUp.length - 1)

/-- The bits of the body, with samples of `bps` bits. -/
def Coding.bits (bps : Nat) : Coding → List Bool
  | .constant v => intToBits bps v
  | .verbatim vs => vs.flatMap (intToBits bps)
  | .fixed warmUp residual => warmUp.flatMap (intToBits bps) ++ residual.bits
  | .lpc warmUp precision shift coefs residual =>
    warmUp.flatMap (intToBits bps) ++ natToBits 4 (precision - 1) ++ intToBits 5 shift ++
      coefs.flatMap (intToBits precision) ++ residual.bits

/-- The bits of a wasted bits count. -/
def wastedBits (k : Nat) : List Bool := if k = 0 then [false] else true :: unaryBits (k - 1)

/-- The bits of a subframe in a frame of `bps` bits per sample. -/
def Subframe.bits (bps : Nat) (s : Subframe) : List Bool :=
  false :: natToBits 6 s.coding.typeCode ++ wastedBits s.wasted ++ s.coding.bits (bps - s.wasted)

/-- The samples denoted by the body, for a block of `blockSize` samples. -/
def Coding.samplesWith (A : Arith) (blockSize : Nat) : Coding → List Int
  | .constant v => List.replicate blockSize v
  | .verbatim vs => vs
  | .fixed warmUp residual =>
    warmUp ++ reconstruct A (fixedPrediction warmUp.length) warmUp.reverse residual.values
  | .lpc warmUp _ shift coefs residual =>
    warmUp ++ reconstruct A (linearPrediction coefs shift) warmUp.reverse residual.values

/-- The samples denoted by a subframe. -/
def Subframe.samplesWith (A : Arith) (blockSize : Nat) (s : Subframe) : List Int :=
  (s.coding.samplesWith A blockSize).map fun v => A.wrap (v * 2 ^ s.wasted)

/-- The samples that a subframe denotes in the format, in exact arithmetic. -/
def Subframe.samples (blockSize : Nat) (s : Subframe) : List Int := s.samplesWith .exact blockSize

/-- The structural requirements on a body with samples of `bps` bits. -/
def Coding.WellFormed (bps blockSize : Nat) : Coding → Prop
  | .constant v => FitsIn bps v
  | .verbatim vs => vs.length = blockSize ∧ ∀ v ∈ vs, FitsIn bps v
  | .fixed warmUp residual =>
    warmUp.length ≤ 4 ∧ (∀ v ∈ warmUp, FitsIn bps v) ∧
      residual.WellFormed blockSize warmUp.length
  | .lpc warmUp precision shift coefs residual =>
    1 ≤ warmUp.length ∧ warmUp.length ≤ 32 ∧ (∀ v ∈ warmUp, FitsIn bps v) ∧
      1 ≤ precision ∧ precision ≤ 15 ∧ shift ≤ 15 ∧ coefs.length = warmUp.length ∧
      (∀ c ∈ coefs, FitsIn precision c) ∧ residual.WellFormed blockSize warmUp.length

/-- The structural requirements on a subframe. -/
structure Subframe.WellFormed (bps blockSize : Nat) (s : Subframe) : Prop where
  wasted : s.wasted < bps
  coding : s.coding.WellFormed (bps - s.wasted) blockSize

/-- The residual of a body in range. -/
def Coding.ResidualInRange : Coding → Prop
  | .constant _ => True
  | .verbatim _ => True
  | .fixed _ residual => residual.InRange
  | .lpc _ _ _ _ residual => residual.InRange

/-- A legal subframe: well-formed, residuals in range, and denoting samples of at most 32 bits. -/
structure Subframe.Legal (bps blockSize : Nat) (s : Subframe) : Prop where
  wellFormed : s.WellFormed bps blockSize
  residual : s.coding.ResidualInRange
  samples : ∀ v ∈ s.samples blockSize, FitsIn 32 v

end Spec
