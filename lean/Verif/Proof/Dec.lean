import Verif.Spec.Checked
import Verif.Model.Base

/-! Lemmas about the decoder monad. -/

namespace Claxon

namespace Dec

variable {σ τ α β : Type}

theorem bind_def (m : Dec σ α) (f : α → Dec σ β) (s : σ) :
    (m >>= f) s = match m s with
      | (.ok a, s') => f a s'
      | (.error e, s') => (.error e, s') := rfl

theorem bind_ok {m : Dec σ α} {s s' : σ} {a : α} (f : α → Dec σ β) (h : m s = (.ok a, s')) :
    (m >>= f) s = f a s' := by rw [bind_def, h]

theorem bind_error {m : Dec σ α} {s s' : σ} {e : Fail} (f : α → Dec σ β)
    (h : m s = (.error e, s')) : (m >>= f) s = (.error e, s') := by rw [bind_def, h]

@[simp] theorem pure_run (a : α) (s : σ) : (Pure.pure a : Dec σ α) s = (.ok a, s) := rfl

@[simp] theorem fail_run (e : Fail) (s : σ) : (Dec.fail e : Dec σ α) s = (.error e, s) := rfl

@[simp] theorem fmtErr_run (r : String) (s : σ) :
    (fmtErr r : Dec σ α) s = (.error (.err (.formatError r)), s) := rfl

@[simp] theorem unsupportedErr_run (r : String) (s : σ) :
    (unsupportedErr r : Dec σ α) s = (.error (.err (.unsupported r)), s) := rfl

@[simp] theorem ioErr_run (e : IoError) (s : σ) :
    (ioErr e : Dec σ α) s = (.error (.err (.ioError e)), s) := rfl

@[simp] theorem get_run (s : σ) : (Dec.get : Dec σ σ) s = (.ok s, s) := rfl

@[simp] theorem set_run (s t : σ) : (Dec.set t : Dec σ Unit) s = (.ok (), t) := rfl

@[simp] theorem lift_run (r : Res α) (s : σ) : (Dec.lift r : Dec σ α) s = (r, s) := rfl

@[simp] theorem liftM_run (r : Res α) (s : σ) : (liftM r : Dec σ α) s = (r, s) := rfl

@[simp] theorem liftM_run' (r : Res α) (s : σ) : (MonadLift.monadLift r : Dec σ α) s = (r, s) := rfl

@[simp] theorem zoom_run (g : σ → τ) (p : τ → σ → σ) (m : Dec τ α) (s : σ) :
    Dec.zoom g p m s = ((m (g s)).1, p (m (g s)).2 s) := rfl

@[simp] theorem bind_pure_run (a : α) (f : α → Dec σ β) (s : σ) :
    ((Pure.pure a : Dec σ α) >>= f) s = f a s := rfl

@[simp] theorem bind_get_run (f : σ → Dec σ β) (s : σ) :
    ((Dec.get : Dec σ σ) >>= f) s = f s s := rfl

@[simp] theorem bind_set_run (t : σ) (f : Unit → Dec σ β) (s : σ) :
    ((Dec.set t : Dec σ Unit) >>= f) s = f () t := rfl

@[simp] theorem bind_fail_run (e : Fail) (f : α → Dec σ β) (s : σ) :
    ((Dec.fail e : Dec σ α) >>= f) s = (.error e, s) := rfl

@[simp] theorem bind_liftM_ok (a : α) (f : α → Dec σ β) (s : σ) :
    ((liftM (Except.ok a : Res α) : Dec σ α) >>= f) s = f a s := rfl

@[simp] theorem bind_liftM_pure (a : α) (f : α → Dec σ β) (s : σ) :
    ((liftM (Pure.pure a : Res α) : Dec σ α) >>= f) s = f a s := rfl

@[simp] theorem bind_liftM_error (e : Fail) (f : α → Dec σ β) (s : σ) :
    ((liftM (Except.error e : Res α) : Dec σ α) >>= f) s = (.error e, s) := rfl

theorem bind_liftM_of {r : Res α} {a : α} (h : r = .ok a) (f : α → Dec σ β) (s : σ) :
    ((liftM r : Dec σ α) >>= f) s = f a s := by subst h; rfl

theorem liftM_of {r : Res α} {a : α} (h : r = .ok a) (s : σ) :
    (liftM r : Dec σ α) s = (.ok a, s) := by subst h; rfl

theorem ite_run {c : Prop} [Decidable c] (m n : Dec σ α) (s : σ) :
    (if c then m else n) s = if c then m s else n s := by split <;> rfl

theorem bind_assoc_run {γ : Type} (m : Dec σ α) (f : α → Dec σ β) (g : β → Dec σ γ) :
    (m >>= f) >>= g = m >>= fun a => f a >>= g := by
  funext s
  simp only [bind_def]
  rcases m s with ⟨_ | _, _⟩ <;> rfl

instance : LawfulMonad (Dec σ) := LawfulMonad.mk'
  (id_map := by
    intro α m; funext s
    show (match m s with | (.ok a, s') => _ | (.error e, s') => _) = _
    rcases m s with ⟨_ | _, _⟩ <;> rfl)
  (pure_bind := fun _ _ => rfl)
  (bind_assoc := fun m f g => bind_assoc_run m f g)

end Dec

/-! ### Checked arithmetic that does not fail -/

theorem addU_ok {w a b : Nat} (h : a + b < 2 ^ w) : addU w a b = .ok (a + b) := if_pos h
theorem subU_ok {w a b : Nat} (h : b ≤ a) : subU w a b = .ok (a - b) := if_pos h
theorem mulU_ok {w a b : Nat} (h : a * b < 2 ^ w) : mulU w a b = .ok (a * b) := if_pos h
theorem shl_ok {w s : Nat} {x : BitVec w} (h : s < w) : shl x s = .ok (x <<< s) := if_pos h
theorem shr_ok {w s : Nat} {x : BitVec w} (h : s < w) : shr x s = .ok (x >>> s) := if_pos h
theorem sar_ok {w s : Nat} {x : BitVec w} (h : s < w) : sar x s = .ok (x.sshiftRight s) := if_pos h
theorem debugAssert_ok {c : Bool} (h : c = true) : debugAssert c = .ok () := if_pos h
theorem index_ok {α : Type} {xs : List α} {i : Nat} (h : i < xs.length) :
    index xs i = .ok xs[i] := by simp [index, h]
theorem setIndex_ok {α : Type} {xs : List α} {i : Nat} {v : α} (h : i < xs.length) :
    setIndex xs i v = .ok (xs.set i v) := if_pos h
theorem slice_ok {α : Type} {xs : List α} {a b : Nat} (h : a ≤ b ∧ b ≤ xs.length) :
    slice xs a b = .ok ((xs.take b).drop a) := if_pos h

end Claxon
