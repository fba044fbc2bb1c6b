import Verif.Spec.Alloc
import Verif.Proof.Client

/-! Memory requests. -/

namespace Claxon

open Spec ReadBytes

variable {σ α β : Type} [ReadBytes σ]

/-! ### The log does not change the behaviour -/

theorem simLogged : SimAll (fun (l : Logged BufferedReader) r => l.inner = r)
    (fun _ => False) where
  rd := {
    readU8 := by rintro l r rfl; exact .inl ⟨rfl, rfl⟩
    readU8OrEof := by rintro l r rfl; exact .inl ⟨rfl, rfl⟩ }
  full := {
    readU8 := by rintro l r rfl; exact .inl ⟨rfl, rfl⟩
    readInto := by rintro n _ l r rfl; exact .inl ⟨rfl, rfl⟩
    skip := by rintro n _ l r rfl; exact .inl ⟨rfl, rfl⟩
    onAlloc := by rintro n k l r rfl; exact .inl ⟨rfl, rfl⟩ }
  io := by intro f h; exact h.elim

/-! ### What is requested -/

/-- The requests made by `m` satisfy `P`. -/
def Allocs (m : Dec (Logged σ) α) (P : List Request → Prop) : Prop :=
  ∀ s, ∃ new, (m s).2.log = s.log ++ new ∧ P new

/-- `m` makes no requests. -/
def Silent (m : Dec (Logged σ) α) : Prop := ∀ s, (m s).2.log = s.log

omit [ReadBytes σ]

namespace Silent

theorem pure (a : α) : Silent (Pure.pure a : Dec (Logged σ) α) := fun _ => rfl

theorem fail (f : Fail) : Silent (Dec.fail f : Dec (Logged σ) α) := fun _ => rfl

theorem fmtErr (msg : String) : Silent (Claxon.fmtErr msg : Dec (Logged σ) α) := fun _ => rfl

theorem lift (r : Res α) : Silent (liftM r : Dec (Logged σ) α) := by
  intro s
  cases r <;> rfl

theorem bind {m : Dec (Logged σ) α} {f : α → Dec (Logged σ) β} (hm : Silent m)
    (hf : ∀ a, Silent (f a)) : Silent (m >>= f) := by
  intro s
  have h1 := hm s
  rw [Dec.bind_def]
  generalize m s = x at h1 ⊢
  rcases x with ⟨e | a, s'⟩
  · exact h1
  · exact (hf a s').trans h1

theorem ite {c : Prop} [Decidable c] {m n : Dec (Logged σ) α} (h1 : Silent m) (h2 : Silent n) :
    Silent (if c then m else n) := by
  split
  · exact h1
  · exact h2

end Silent

theorem silent_readU8 [ReadBytes σ] : Silent (readU8 : Dec (Logged σ) U8) := fun _ => rfl

theorem silent_readInto [ReadBytes σ] (n : Nat) : Silent (readInto n : Dec (Logged σ) (List U8)) :=
  fun _ => rfl

theorem silent_skip [ReadBytes σ] (n : Nat) : Silent (skip n : Dec (Logged σ) Unit) := fun _ => rfl

theorem silent_readBeU16 [ReadBytes σ] : Silent (readBeU16 : Dec (Logged σ) U16) :=
  silent_readU8.bind fun _ => silent_readU8.bind fun _ => .pure _

theorem silent_readBeU24 [ReadBytes σ] : Silent (readBeU24 : Dec (Logged σ) U32) :=
  silent_readU8.bind fun _ => silent_readU8.bind fun _ => silent_readU8.bind fun _ => .pure _

theorem silent_readBeU32 [ReadBytes σ] : Silent (readBeU32 : Dec (Logged σ) U32) :=
  silent_readU8.bind fun _ => silent_readU8.bind fun _ => silent_readU8.bind fun _ =>
    silent_readU8.bind fun _ => .pure _

theorem silent_readLeU32 [ReadBytes σ] : Silent (readLeU32 : Dec (Logged σ) U32) :=
  silent_readU8.bind fun _ => silent_readU8.bind fun _ => silent_readU8.bind fun _ =>
    silent_readU8.bind fun _ => .pure _

theorem silent_string (bytes : List U8) : Silent (stringFromUtf8 bytes : Dec (Logged σ) Str) :=
  .ite (.pure _) (.fail _)

theorem silent_comment (bytes : List U8) : Silent (checkComment bytes : Dec (Logged σ) _) := by
  unfold checkComment
  split
  · exact .ite (.fail _) ((silent_string _).bind fun _ => .pure _)
  · exact .fail _

theorem silent_streaminfo [ReadBytes σ] : Silent (readStreaminfoBlock : Dec (Logged σ) _) := by
  refine silent_readBeU16.bind fun _ => silent_readBeU16.bind fun _ => silent_readBeU24.bind fun _ =>
    silent_readBeU24.bind fun _ => silent_readBeU16.bind fun _ => silent_readU8.bind fun _ =>
    (Silent.lift _).bind fun _ => silent_readU8.bind fun _ => (Silent.lift _).bind fun _ =>
    silent_readBeU32.bind fun _ => (silent_readInto _).bind fun _ => ?_
  unfold checkStreaminfo
  exact .ite (.fail _) (.ite (.fail _) (.ite (.fail _) (.ite (.fail _) (.pure _))))

namespace Allocs

variable {P : List Request → Prop}

theorem of_silent {m : Dec (Logged σ) α} (h : Silent m) (hP : P []) : Allocs m P :=
  fun s => ⟨[], by rw [h s, List.append_nil], hP⟩

theorem bind {m : Dec (Logged σ) α} {f : α → Dec (Logged σ) β} (hm : Silent m) (hP : P [])
    (hf : ∀ a, Allocs (f a) P) : Allocs (m >>= f) P := by
  intro s
  have h1 := hm s
  rw [Dec.bind_def]
  generalize m s = x at h1 ⊢
  rcases x with ⟨e | a, s'⟩
  · exact ⟨[], by rw [List.append_nil]; exact h1, hP⟩
  · obtain ⟨new, h2, h3⟩ := hf a s'
    exact ⟨new, h2.trans (by rw [h1]), h3⟩

theorem bind_lift {r : Res α} {f : α → Dec (Logged σ) β} (hP : P [])
    (hf : ∀ a, r = .ok a → Allocs (f a) P) : Allocs (liftM r >>= f) P := by
  cases r with
  | error e => exact fun s => ⟨[], by rw [List.append_nil]; rfl, hP⟩
  | ok a => exact hf a rfl

theorem bind_alloc [ReadBytes σ] {n k : Nat} {f : Unit → Dec (Logged σ) β}
    (hf : Allocs (f ()) (fun l => P (⟨n, k⟩ :: l))) :
    Allocs (onAlloc n k >>= f) P := by
  intro s
  obtain ⟨new, h1, h2⟩ := hf { s with log := s.log ++ [⟨n, k⟩] }
  refine ⟨⟨n, k⟩ :: new, ?_, h2⟩
  rw [Dec.bind_def]
  show (f () { s with log := s.log ++ [⟨n, k⟩] }).2.log = _
  rw [h1, List.append_assoc]
  rfl

theorem bind_of {m : Dec (Logged σ) α} {f : α → Dec (Logged σ) β} (hm : Allocs m P)
    (hf : ∀ a, Silent (f a)) : Allocs (m >>= f) P := by
  intro s
  obtain ⟨new, h1, h2⟩ := hm s
  rw [Dec.bind_def]
  rcases hr : m s with ⟨e | a, s'⟩
  · rw [hr] at h1; exact ⟨new, h1, h2⟩
  · rw [hr] at h1
    exact ⟨new, by simp only; rw [hf a s']; exact h1, h2⟩

theorem ite {c : Prop} [Decidable c] {m n : Dec (Logged σ) α} (h1 : c → Allocs m P)
    (h2 : ¬ c → Allocs n P) : Allocs (if c then m else n) P := by
  split
  · exact h1 ‹_›
  · exact h2 ‹_›

theorem mono {m : Dec (Logged σ) α} {Q : List Request → Prop} (h : Allocs m P)
    (hpq : ∀ l, P l → Q l) : Allocs m Q := fun s => by
  obtain ⟨new, h1, h2⟩ := h s
  exact ⟨new, h1, hpq _ h2⟩

end Allocs

/-- Requests for strings or payload only, of at most `n` bytes in total. -/
def BytesOnly (n : Nat) (l : List Request) : Prop := (∀ r ∈ l, r.size = 1) ∧ requestedBytes l ≤ n

theorem bytesOnly_nil (n : Nat) : BytesOnly n [] := ⟨by simp, by simp [requestedBytes]⟩

theorem BytesOnly.cons {n k : Nat} {l : List Request} (h : BytesOnly n l) :
    BytesOnly (k + n) (⟨k, 1⟩ :: l) := by
  refine ⟨?_, ?_⟩
  · intro r hr
    rcases List.mem_cons.1 hr with rfl | hr
    · rfl
    · exact h.1 r hr
  · have := h.2
    simp [requestedBytes] at this ⊢
    exact this

theorem BytesOnly.le {n m : Nat} {l : List Request} (h : BytesOnly n l) (hnm : n ≤ m) :
    BytesOnly m l := ⟨h.1, Nat.le_trans h.2 hnm⟩

theorem allocs_comments [ReadBytes σ] (n : Nat) : ∀ (bl cl : Nat) (cs : List (Str × Nat)), bl ≤ n →
    Allocs (commentsLoop bl cl cs : Dec (Logged σ) _) (BytesOnly bl) := by
  induction n with
  | zero =>
    intro bl cl cs h
    rw [commentsLoop_eq, dif_neg (by omega)]
    exact .of_silent (.pure _) (bytesOnly_nil _)
  | succ n ih =>
    intro bl cl cs h
    rw [commentsLoop_eq]
    by_cases hc : bl ≥ 4 ∧ cs.length < cl
    · rw [dif_pos hc]
      refine Allocs.bind silent_readLeU32 (bytesOnly_nil _) fun v => ?_
      refine .ite (fun _ => .of_silent (.fail _) (bytesOnly_nil _)) fun h1 => .ite (fun h2 => ?_)
        fun h2 => ?_
      · exact (ih _ _ _ (by omega)).mono fun l hl => hl.le (by omega)
      · refine Allocs.bind_alloc ?_
        have h0 : BytesOnly bl [⟨v.toNat, 1⟩] :=
          (BytesOnly.cons (bytesOnly_nil 0)).le (by omega)
        refine Allocs.bind (silent_readInto _) h0 fun bytes => ?_
        refine Allocs.bind (silent_comment _) h0 fun c => ?_
        exact (ih _ _ _ (by omega)).mono fun l hl => (BytesOnly.cons hl).le (by omega)
    · rw [dif_neg hc]
      exact .of_silent (.pure _) (bytesOnly_nil _)

/-- What a metadata block of the given length can request. -/
structure RequestsOk (length : Nat) (l : List Request) : Prop where
  total : requestedBytes l ≤ length
  limit : length ≤ maxBlockLength ∨ l = []
  other : ∀ r ∈ l, r.size = 1 ∨ (r.size = 32 ∧ r.count < length / 4)
  once : (l.filter fun r => r.size ≠ 1).length ≤ 1

theorem requestsOk_nil (length : Nat) : RequestsOk length [] :=
  ⟨by simp [requestedBytes], .inr rfl, by simp, by simp⟩

theorem BytesOnly.requestsOk {length : Nat} {l : List Request} (h : BytesOnly length l)
    (hl : length ≤ maxBlockLength) : RequestsOk length l where
  total := h.2
  limit := .inl hl
  other := fun r hr => .inl (h.1 r hr)
  once := by
    have : (l.filter fun r => r.size ≠ 1) = [] := by
      rw [List.filter_eq_nil_iff]
      intro r hr
      simp [h.1 r hr]
    rw [this]; simp

theorem requestsOk_vorbis {length v c n : Nat} {l : List Request} (h : BytesOnly n l)
    (hl : length ≤ maxBlockLength) (hn : v + n ≤ length) (hc : c < length / 4) :
    RequestsOk length (⟨v, 1⟩ :: ⟨c, 32⟩ :: l) where
  total := by
    have := h.2
    simp [requestedBytes] at this ⊢
    omega
  limit := .inl hl
  other := by
    intro r hr
    simp only [List.mem_cons] at hr
    rcases hr with rfl | rfl | hr
    · exact .inl rfl
    · exact .inr ⟨rfl, hc⟩
    · exact .inl (h.1 r hr)
  once := by
    have : (l.filter fun r => r.size ≠ 1) = [] := by
      rw [List.filter_eq_nil_iff]
      intro r hr
      simp [h.1 r hr]
    rw [List.filter_cons_of_neg (by simp), List.filter_cons_of_pos (by simp), this]
    simp

theorem allocs_vorbis [ReadBytes σ] (length : Nat) :
    Allocs (readVorbisCommentBlock length : Dec (Logged σ) _) (RequestsOk length) := by
  unfold readVorbisCommentBlock
  have h0 := requestsOk_nil length
  refine .ite (fun _ => .of_silent (.fail _) h0) fun h1 => .ite (fun _ => .of_silent (.fail _) h0)
    fun h2 => ?_
  have hmax : length ≤ maxBlockLength := by unfold maxBlockLength; omega
  refine Allocs.bind silent_readLeU32 h0 fun v => ?_
  refine Allocs.bind_lift h0 fun m hm => ?_
  rw [subU_ok (by omega)] at hm
  cases hm
  refine .ite (fun _ => .of_silent (.fail _) h0) fun h3 => ?_
  refine Allocs.bind_alloc ?_
  have hv : RequestsOk length [⟨v.toNat, 1⟩] :=
    ((BytesOnly.cons (bytesOnly_nil 0)).le (m := length) (by omega)).requestsOk hmax
  refine Allocs.bind (silent_readInto _) hv fun bytes => ?_
  refine Allocs.bind (silent_string _) hv fun vendor => ?_
  refine Allocs.bind silent_readLeU32 hv fun c => ?_
  refine .ite (fun _ => .of_silent (.fail _) hv) fun h4 => ?_
  refine Allocs.bind_alloc ?_
  have hc : RequestsOk length [⟨v.toNat, 1⟩, ⟨c.toNat, 32⟩] :=
    requestsOk_vorbis (bytesOnly_nil 0) hmax (by omega) (by omega)
  refine Allocs.bind_lift hc fun rest hrest => ?_
  rw [subU_ok (by omega)] at hrest
  cases hrest
  refine Allocs.bind_lift hc fun bl hbl => ?_
  rw [subU_ok (by omega)] at hbl
  cases hbl
  refine Allocs.bind_of ?_ fun ⟨_, _, _⟩ => .ite (.fail _) (.ite (.fail _) (.pure _))
  exact (allocs_comments _ _ _ _ (Nat.le_refl _)).mono fun l hl =>
    requestsOk_vorbis hl hmax (by omega) (by omega)

theorem allocs_application [ReadBytes σ] (length : Nat) :
    Allocs (readApplicationBlock length : Dec (Logged σ) _) (RequestsOk length) := by
  unfold readApplicationBlock
  have h0 := requestsOk_nil length
  refine .ite (fun _ => .of_silent (.fail _) h0) fun h1 => .ite (fun _ => .of_silent (.fail _) h0)
    fun h2 => ?_
  refine Allocs.bind silent_readBeU32 h0 fun id => ?_
  refine Allocs.bind_lift h0 fun n hn => ?_
  rw [subU_ok (by omega)] at hn
  cases hn
  refine Allocs.bind_alloc ?_
  have h3 : RequestsOk length [⟨length - 4, 1⟩] :=
    ((BytesOnly.cons (bytesOnly_nil 0)).le (m := length) (by omega)).requestsOk
      (by unfold maxBlockLength; omega)
  exact .bind (silent_readInto _) h3 fun _ => .of_silent (.pure _) h3

theorem allocs_body [ReadBytes σ] (ty : U8) (length : Nat) :
    Allocs (readMetadataBlock ty length : Dec (Logged σ) _) (RequestsOk length) := by
  unfold readMetadataBlock
  have h0 := requestsOk_nil length
  have hskip : ∀ b : MetadataBlock,
      Allocs (do skip length; pure b : Dec (Logged σ) _) (RequestsOk length) := fun b =>
    .of_silent ((silent_skip _).bind fun _ => .pure _) h0
  refine .ite (fun _ => ?_) fun _ => .ite (fun _ => hskip _) fun _ => .ite (fun _ => ?_) fun _ =>
    .ite (fun _ => hskip _) fun _ => .ite (fun _ => ?_) fun _ => .ite (fun _ => hskip _) fun _ =>
    .ite (fun _ => hskip _) fun _ => .ite (fun _ => .of_silent (.fail _) h0) fun _ => hskip _
  · exact .ite (fun _ => .of_silent (silent_streaminfo.bind fun _ => .pure _) h0)
      fun _ => .of_silent (.fail _) h0
  · exact (allocs_application length).bind_of fun ⟨_, _⟩ => .pure _
  · exact (allocs_vorbis length).bind_of fun _ => .pure _

end Claxon
