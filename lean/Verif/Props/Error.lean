import Verif.Spec.Checked
import Verif.Model.Error

/-! # C51: comparing errors -/

namespace Claxon.Props

open Claxon

/-- **C51.** Comparison is symmetric. -/
theorem C51_symm (a b : Error) : Error.eq a b = Error.eq b a := by
  cases a <;> cases b <;> simp [Error.eq, Bool.beq_eq_decide_eq, eq_comm]

/-- **C51.** Comparison is transitive. -/
theorem C51_trans {a b c : Error} (h1 : Error.eq a b = true) (h2 : Error.eq b c = true) :
    Error.eq a c = true := by
  cases a <;> cases b <;> simp [Error.eq] at h1
  all_goals cases c <;> simp [Error.eq] at h2
  all_goals simp [Error.eq, h1, h2]

/-- **C51.** Two errors are equal exactly if they are both format errors, or both for unsupported features,
with the same message. -/
theorem C51_message (a b : Error) : Error.eq a b = true ↔
    (∃ msg, a = .formatError msg ∧ b = .formatError msg) ∨
      ∃ msg, a = .unsupported msg ∧ b = .unsupported msg := by
  cases a <;> cases b <;> simp [Error.eq]
  all_goals exact eq_comm

/-- **C51.** An I/O error never equals anything, not even itself. -/
theorem C51_io (e : IoError) (b : Error) :
    Error.eq (.ioError e) b = false ∧ Error.eq b (.ioError e) = false := by
  cases b <;> exact ⟨rfl, rfl⟩

example : Error.eq (.formatError "a") (.formatError "a") = true := by decide

/-- **C51.** What is displayed begins with the kind of the error, and ends with its message; for an I/O error
it is what the I/O error displays. -/
theorem C51_text (ioText : IoError → String) :
    (∀ reason, Error.display ioText (.formatError reason) = "Ill-formed FLAC stream: " ++ reason) ∧
      (∀ feature, Error.display ioText (.unsupported feature) =
        "A currently unsupported feature of the FLAC format was encountered: " ++ feature) ∧
      ∀ e, Error.display ioText (.ioError e) = ioText e :=
  ⟨fun _ => rfl, fun _ => rfl, fun _ => rfl⟩

/-- **C51.** Two errors that are not I/O errors display the same text exactly if they are equal. -/
theorem C51_display (ioText : IoError → String) {a b : Error} (ha : ∀ e, a ≠ .ioError e)
    (hb : ∀ e, b ≠ .ioError e) : Error.display ioText a = Error.display ioText b ↔ Error.eq a b = true := by
  have inj : ∀ p x y : String, p ++ x = p ++ y ↔ x = y := by
    intro p x y
    constructor
    · intro h
      have h2 := congrArg String.toList h
      rw [String.toList_append, String.toList_append] at h2
      exact String.toList_inj.1 (List.append_cancel_left h2)
    · rintro rfl; rfl
  have key : ∀ x y : String, "Ill-formed FLAC stream: " ++ x ≠
      "A currently unsupported feature of the FLAC format was encountered: " ++ y := by
    intro x y h
    have h2 := congrArg (fun s => s.toList.head?) h
    simp at h2
  cases a with
  | ioError e => exact absurd rfl (ha e)
  | formatError x =>
    cases b with
    | ioError e => exact absurd rfl (hb e)
    | formatError y => exact (inj _ x y).trans beq_iff_eq.symm
    | unsupported y =>
      exact ⟨fun h => (key x y h).elim, fun h => Bool.noConfusion h⟩
  | unsupported x =>
    cases b with
    | ioError e => exact absurd rfl (hb e)
    | formatError y =>
      exact ⟨fun h => (key y x h.symm).elim, fun h => Bool.noConfusion h⟩
    | unsupported y => exact (inj _ x y).trans beq_iff_eq.symm

/-- **C51.** Exactly the I/O errors have a cause, and it is the error of the wrapped reader. -/
theorem C51_cause (a : Error) (e : IoError) : a.cause = some e ↔ a = .ioError e := by
  cases a <;> simp [Error.cause]

/-- **C51.** The description of a format error is its message, with which the displayed text ends. The description
of an unsupported feature does not say which feature: it is the same for all of them. -/
theorem C51_description (ioText ioDescription : IoError → String) :
    (∀ reason, Error.display ioText (.formatError reason) =
      "Ill-formed FLAC stream: " ++ Error.description ioDescription (.formatError reason)) ∧
      (∀ a b, Error.description ioDescription (.unsupported a) = Error.description ioDescription (.unsupported b)) ∧
      (∀ a b, Error.description ioDescription (.formatError a) = Error.description ioDescription (.formatError b) ↔
        Error.eq (.formatError a) (.formatError b) = true) ∧
      ∀ e, Error.description ioDescription (.ioError e) = ioDescription e :=
  ⟨fun _ => rfl, fun _ _ => rfl, fun a b => by simp [Error.description, Error.eq], fun _ => rfl⟩

example : Error.display (fun _ => "") (.formatError "a") ≠ Error.display (fun _ => "") (.unsupported "a") := by
  decide

end Claxon.Props
