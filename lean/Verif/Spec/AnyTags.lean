import Verif.Spec.Metadata

/-! # Comments that are given to the tag iterators

`Tags::new` and `GetTag::new` are public, so the strings and the positions of the separators can be anything. -/

namespace Spec

open Claxon

/-- The text consists of a text of `i` bytes, and another text. -/
def CutAt (s : Str) (i : Nat) : Prop := ∃ a b, Utf8 a ∧ Utf8 b ∧ s = a ++ b ∧ a.length = i

/-- The text is a name of `i` bytes, a separator (any ASCII character), and a value. -/
def Separated (s : Str) (i : Nat) (name value : Str) : Prop :=
  Utf8 name ∧ Utf8 value ∧ ∃ c : U8, c.toNat < 0x80 ∧ s = name ++ c :: value ∧ name.length = i

/-- What `Tags` makes of a comment. -/
inductive ItemOf : Str × Nat → Except Fail (Option (Str × Str)) → Prop
  | item {s i name value} (h : Separated s i name value) : ItemOf (s, i) (.ok (some (name, value)))
  | panic {s i} (h : ∀ name value, ¬ Separated s i name value) : ItemOf (s, i) (.error (.panic .charBoundary))

/-- What `GetTag` makes of some comments, if it looks for a name. -/
inductive Finds (needle : Str) : List (Str × Nat) → List (Except Fail (Option Str)) → Prop
  | nil : Finds needle [] []
  | found {s i name value more items} (h : Separated s i name value) (hn : sameName name needle = true)
      (hm : Finds needle more items) : Finds needle ((s, i) :: more) (.ok (some value) :: items)
  | other {name rest more items} (h1 : Utf8 name) (h2 : Utf8 rest) (hn : sameName name needle = false)
      (hm : Finds needle more items) : Finds needle ((name ++ rest, name.length) :: more) items
  | noName {s i more items} (h : ¬ CutAt s i)
      (hm : Finds needle more items) : Finds needle ((s, i) :: more) (.error (.panic .charBoundary) :: items)
  | noValue {name rest more items} (h1 : Utf8 name) (h2 : Utf8 rest) (hn : sameName name needle = true)
      (h : ∀ value, ¬ Separated (name ++ rest) name.length name value)
      (hm : Finds needle more items) :
      Finds needle ((name ++ rest, name.length) :: more) (.error (.panic .charBoundary) :: items)

end Spec
