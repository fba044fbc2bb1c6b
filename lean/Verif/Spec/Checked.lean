import Verif.Model.Base

/-! # Checked builds

The model is parametrised by how the code is compiled. Unless a theorem mentions another build, it is about
a build with overflow checks and debug assertions. This file is not imported by the model, so that every
function of the model has to pass on its own `Build`. -/

namespace Claxon

/-- A build with overflow checks and debug assertions. -/
instance checkedBuild : Build := ⟨true⟩

/-- A build without overflow checks and debug assertions: overflows wrap around, the amount of a shift is
masked, and debug assertions are not evaluated. -/
@[instance_reducible] def uncheckedBuild : Build := ⟨false⟩

/-- A platform with 64-bit pointers. Unless a theorem mentions another one, it is about this. -/
instance target64 : Target := ⟨64⟩

/-- A platform with 32-bit pointers. -/
@[instance_reducible] def target32 : Target := ⟨32⟩

/-- A build without `cfg(fuzzing)`. Unless a theorem mentions another one, it is about this. -/
instance notFuzzing : FuzzCfg := ⟨false⟩

/-- A build with `cfg(fuzzing)`. -/
@[instance_reducible] def underFuzzing : FuzzCfg := ⟨true⟩

end Claxon
