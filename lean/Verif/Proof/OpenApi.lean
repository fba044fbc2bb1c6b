import Verif.Proof.MetadataApi

/-! The sequence of metadata blocks at the start of a stream. -/

namespace Claxon

open Spec ReadBytes

/-- What a block says, apart from how it is written. -/
def summary (b : EncodedBlock) : Bool × MetadataBlock := (b.isLast, b.block)

theorem encodedBlock_unique {b b' : EncodedBlock} {rest rest' : List U8}
    (h : b.bytes ++ rest = b'.bytes ++ rest') : summary b = summary b' ∧ rest = rest' := by
  have h1 := breads_block b rest none
  have h2 := breads_block b' rest' none
  rw [h, h2] at h1
  injection h1 with h3 h4
  injection h3 with h3
  injection h4 with h4
  exact ⟨h3.symm, h4.symm⟩

theorem complete_cons {b : EncodedBlock} {bs : List EncodedBlock} :
    Complete (b :: bs) ↔ (b.isLast = true ∧ bs = []) ∨ (b.isLast = false ∧ Complete bs) := by
  constructor
  · rintro ⟨init, c, h1, h2, h3⟩
    cases init with
    | nil =>
      rw [List.nil_append] at h1
      injection h1 with h4 h5
      subst h4
      exact .inl ⟨h2, h5⟩
    | cons i init =>
      rw [List.cons_append] at h1
      injection h1 with h4 h5
      subst h4
      exact .inr ⟨h3 _ (by simp), init, c, h5, h2, fun d hd => h3 d (by simp [hd])⟩
  · rintro (⟨h1, rfl⟩ | ⟨h1, init, c, rfl, h2, h3⟩)
    · exact ⟨[], b, rfl, h1, by simp⟩
    · refine ⟨b :: init, c, rfl, h2, ?_⟩
      intro d hd
      rcases List.mem_cons.1 hd with rfl | hd
      · exact h1
      · exact h3 d hd

theorem not_complete_nil : ¬ Complete [] := by
  rintro ⟨init, c, h, _⟩
  simp at h

theorem metadata_unique {bs : List EncodedBlock} : ∀ {bs' : List EncodedBlock} {rest rest' : List U8},
    Complete bs → Complete bs' → metadataBytes bs ++ rest = metadataBytes bs' ++ rest' →
    bs.map summary = bs'.map summary ∧ rest = rest' := by
  induction bs with
  | nil => intro _ _ _ h; exact absurd h not_complete_nil
  | cons b bs ih =>
    intro bs' rest rest' h h' heq
    cases bs' with
    | nil => exact absurd h' not_complete_nil
    | cons b' bs' =>
      rw [metadataBytes_cons, metadataBytes_cons, List.append_assoc, List.append_assoc] at heq
      obtain ⟨h1, h2⟩ := encodedBlock_unique heq
      have hl : b.isLast = b'.isLast := congrArg Prod.fst h1
      rcases complete_cons.1 h with ⟨h3, rfl⟩ | ⟨h3, h4⟩
      · rcases complete_cons.1 h' with ⟨h5, rfl⟩ | ⟨h5, _⟩
        · exact ⟨by simp [h1], h2⟩
        · rw [hl, h5] at h3; cases h3
      · rcases complete_cons.1 h' with ⟨h5, _⟩ | ⟨h5, h6⟩
        · rw [hl, h5] at h3; cases h3
        · obtain ⟨h7, h8⟩ := ih h4 h6 h2
          exact ⟨by simp [h1, h7], h8⟩

theorem metadata_prefix {bs : List EncodedBlock} : ∀ {bs' : List EncodedBlock} {rest rest' : List U8},
    Complete bs → (∀ c ∈ bs'.dropLast, c.isLast = false) →
    metadataBytes bs ++ rest = metadataBytes bs' ++ rest' → bs'.map summary <+: bs.map summary := by
  induction bs with
  | nil => intro _ _ _ h; exact absurd h not_complete_nil
  | cons b bs ih =>
    intro bs' rest rest' h h' heq
    cases bs' with
    | nil => exact List.nil_prefix
    | cons b' bs' =>
      rw [metadataBytes_cons, metadataBytes_cons, List.append_assoc, List.append_assoc] at heq
      obtain ⟨h1, h2⟩ := encodedBlock_unique heq
      have hl : b.isLast = b'.isLast := congrArg Prod.fst h1
      rw [List.map_cons, List.map_cons, h1, List.cons_prefix_cons]
      refine ⟨rfl, ?_⟩
      cases bs' with
      | nil => exact List.nil_prefix
      | cons c bs' =>
        have h3 := h' b' (by simp)
        rcases complete_cons.1 h with ⟨h4, rfl⟩ | ⟨h4, h5⟩
        · rw [hl, h3] at h4; cases h4
        · exact ih h5 (fun d hd => h' d (by rw [List.dropLast_cons_cons]; simp [hd])) h2

/-! ### Reading everything -/

section

variable {o : FlacReaderOptions} {first : EncodedBlock} {more : List EncodedBlock} {info : StreamInfo}
  {vc : Option VorbisComment}

theorem enough_iff (ho : o.metadataOnly = false) (fewer : List EncodedBlock) :
    Enough o first fewer ↔ ((first :: fewer).getLast (by simp)).isLast = true := by
  unfold Enough
  rw [ho]
  simp

theorem _root_.Spec.Metadata.notLast (h : Metadata o first more info vc) :
    ∀ c ∈ (first :: more).dropLast, c.isLast = false := by
  intro c hc
  rw [List.mem_iff_getElem] at hc
  obtain ⟨i, hi, hc⟩ := hc
  have hi' : i < more.length := by simpa using hi
  have hlast := h.necessary (more.take i) (List.take_prefix _ _) (by
    intro he
    have := congrArg List.length he
    rw [List.length_take] at this
    omega)
  have hlast : ¬ ((first :: more.take i).getLast (by simp)).isLast = true := fun hl => hlast (.inl hl)
  rw [Bool.not_eq_true] at hlast
  rw [← hlast, ← hc]
  congr 1
  rw [List.getElem_dropLast, List.getLast_eq_getElem]
  have hl : (first :: more.take i).length - 1 = i := by simp; omega
  cases i with
  | zero => simp
  | succ i =>
    simp only [List.getElem_cons_succ]
    have : (first :: more.take (i + 1)).length - 1 = i + 1 := hl
    simp only [this, List.getElem_cons_succ, List.getElem_take]

theorem _root_.Spec.Metadata.complete (h : Metadata o first more info vc) (ho : o.metadataOnly = false) :
    Complete (first :: more) :=
  ⟨(first :: more).dropLast, (first :: more).getLast (by simp),
    (List.dropLast_append_getLast _).symm, (enough_iff ho _).1 h.enough, h.notLast⟩

theorem metadata_of_complete (ho : o.metadataOnly = false) (hc : Complete (first :: more))
    (h1 : first.block = .streamInfo info) (h2 : ∀ b ∈ more, ¬ IsStreaminfo b)
    (h3 : (commentsIn more).length ≤ 1) :
    Metadata o first more info (if o.readVorbisComment then (commentsIn more).head? else none) where
  streaminfo := h1
  onlyOne := h2
  comments := h3
  comment := rfl
  enough := by
    obtain ⟨init, b, h4, h5, h6⟩ := hc
    rw [enough_iff ho]
    simp only [h4, List.getLast_append_singleton, h5]
  necessary := by
    intro fewer h7 h8
    obtain ⟨init, b, h4, h5, h6⟩ := hc
    rw [enough_iff ho, Bool.not_eq_true]
    apply h6
    obtain ⟨t, rfl⟩ := h7
    have ht : t ≠ [] := by rintro rfl; simp at h8
    have h9 : first :: fewer ++ t.dropLast = init := by
      have := congrArg List.dropLast h4
      rw [List.dropLast_concat, ← List.cons_append, List.dropLast_append_of_ne_nil ht] at this
      exact this
    rw [← h9]
    exact List.mem_append_left _ (List.getLast_mem _)

end

theorem isStreaminfo_summary {b b' : EncodedBlock} (h : summary b = summary b') :
    IsStreaminfo b ↔ IsStreaminfo b' := by
  unfold IsStreaminfo
  rw [show b.block = b'.block from congrArg Prod.snd h]

theorem commentsIn_prefix {bs bs' : List EncodedBlock} (h : bs.map summary <+: bs'.map summary) :
    commentsIn bs <+: commentsIn bs' := by
  have key : ∀ bs : List EncodedBlock, commentsIn bs = (bs.map summary).filterMap fun x =>
      match x.2 with
      | .vorbisComment vc => some vc
      | _ => none := by
    intro bs
    rw [List.filterMap_map]
    rfl
  rw [key, key]
  exact h.filterMap _

theorem commentsIn_summary {bs bs' : List EncodedBlock} (h : bs.map summary = bs'.map summary) :
    commentsIn bs = commentsIn bs' := by
  have key : ∀ bs : List EncodedBlock, commentsIn bs = (bs.map summary).filterMap fun x =>
      match x.2 with
      | .vorbisComment vc => some vc
      | _ => none := by
    intro bs
    rw [List.filterMap_map]
    rfl
  rw [key, key, h]

theorem mem_summary {bs bs' : List EncodedBlock} (h : bs.map summary = bs'.map summary)
    {P : EncodedBlock → Prop} (hP : ∀ b b', summary b = summary b' → P b → P b')
    (hb : ∀ b ∈ bs, P b) : ∀ b ∈ bs', P b := by
  intro b' hb'
  have : summary b' ∈ bs.map summary := by rw [h]; exact List.mem_map_of_mem hb'
  obtain ⟨b, h1, h2⟩ := List.mem_map.1 this
  exact hP b b' h2 (hb b h1)

end Claxon
