import Verif.Model.Base

/-! Models `/repo/src/error.rs:34-80`: comparison, display and description of errors. -/

namespace Claxon

/-- error.rs:34-45 `impl PartialEq for Error`. -/
def Error.eq : Error → Error → Bool
  | .formatError r1, .formatError r2 => r1 == r2
  | .unsupported f1, .unsupported f2 => f1 == f2
  | .ioError _, _ => false
  | .formatError _, _ => false
  | .unsupported _, _ => false

/-- error.rs:47-62 `impl Display for Error`. The text of an I/O error is produced by the standard
library (or the wrapped reader) and is a parameter here. -/
def Error.display (ioText : IoError → String) : Error → String
  | .ioError e => ioText e
  | .formatError reason => "Ill-formed FLAC stream: " ++ reason
  | .unsupported feature =>
    "A currently unsupported feature of the FLAC format was encountered: " ++ feature

/-- error.rs:65-71 `description`. The description of an I/O error is a parameter, as in `display`. -/
def Error.description (ioText : IoError → String) : Error → String
  | .ioError e => ioText e
  | .formatError reason => reason
  | .unsupported _ => "unsupported feature"

/-- error.rs:73-79 `cause`: only I/O errors have a cause. -/
def Error.cause : Error → Option IoError
  | .ioError e => some e
  | .formatError _ => none
  | .unsupported _ => none

end Claxon
