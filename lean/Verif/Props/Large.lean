import Verif.Proof.Position
import Verif.Props.Classified
import Verif.Props.OpenReasons

/-! # C92: excessively large metadata blocks -/

namespace Claxon.Props

open Claxon Spec ReadBytes Examples

variable {bytes rest : List U8} {fault : Option Nat} {src : Src} {fuel : Nat} {o : FlacReaderOptions}

/-- A picture of `10 MiB + 1` bytes, as the last block. -/
def largePicture : EncodedBlock where
  isLast := true
  blockType := 6#8
  body := List.replicate 10485761 0#8
  block := .padding (List.replicate 10485761 0#8).length
  encodes := .padding _ (by decide) _
  typeLt := by decide
  lengthLt := by rw [List.length_replicate]; decide

/-- **C92 is not true.** A stream with a picture of more than 10 MiB is opened. -/
theorem C92_false : ¬ ∀ (src : Src) (fault : Option Nat) (first : EncodedBlock) (more : List EncodedBlock)
    (rest : List U8) (fuel : Nat), Complete (first :: more) →
    src.Delivers (streamMarker ++ metadataBytes (first :: more) ++ rest) fault →
    (streamMarker ++ metadataBytes (first :: more) ++ rest).length < 4 * fuel →
    (∃ b ∈ more, maxBlockLength < b.body.length) →
    ∃ msg, FlacReader.new fuel src = .error (.err (.unsupported msg)) := by
  intro h
  have hm : Metadata .default (infoBlock false) [largePicture] exampleInfo none := by
    refine ⟨rfl, ?_, by decide, rfl, .inl rfl, ?_⟩
    · intro b hb
      rw [List.mem_singleton] at hb
      subst hb
      rintro ⟨_, h⟩
      cases h
    · intro fewer hp hne
      rcases List.prefix_cons_iff.mp hp with rfl | ⟨t, rfl, ht⟩
      · rintro (h | ⟨h, _⟩) <;> exact absurd h (by decide)
      · exact absurd (by rw [List.prefix_nil.mp ht]) hne
  generalize hb : streamMarker ++ metadataBytes (infoBlock false :: [largePicture]) ++ [] = bytes
  have hd : (memory bytes).Delivers bytes none := memory_delivers _
  obtain ⟨msg, h⟩ := h (memory bytes) none (infoBlock false) [largePicture] [] (bytes.length + 1)
    ⟨[infoBlock false], largePicture, rfl, rfl, by simp [infoBlock]⟩ (by rw [hb]; exact hd)
    (by rw [hb]; omega) ⟨largePicture, by simp, by
      show _ < (List.replicate 10485761 0#8).length
      rw [List.length_replicate]; decide⟩
  obtain ⟨reader, h'⟩ := opens (o := .default) hd (fuel := bytes.length + 1) (by omega)
    ⟨_, _, _, _, _, hm, hb.symm⟩
  unfold FlacReader.new at h
  rw [h'] at h
  cases h

theorem refused_large {ty : U8} (isLast : Bool) {length : Nat} (ht : ty = 2#8 ∨ ty = 4#8)
    (hlen : maxBlockLength < length) (h24 : length < 2 ^ 24) :
    ∃ msg, RefusedBlock (headerBytes isLast ty length) (.unsupported msg) := by
  rcases ht with rfl | rfl
  · have := RefusedBlock.mk isLast _ length (by decide) h24 [] _ (.largeApplication length hlen)
    rw [List.append_nil] at this
    exact ⟨_, this⟩
  · have := RefusedBlock.mk isLast _ length (by decide) h24 [] _ (.largeComments length hlen)
    rw [List.append_nil] at this
    exact ⟨_, this⟩

/-- **C92, for application and Vorbis comment blocks.** If such a block announces more than 10 MiB and the options
ask for it to be read, the stream is not supported, however little of the block there is. -/
theorem C92_partial {first : EncodedBlock} {more : List EncodedBlock} {ty : U8} {isLast : Bool} {length : Nat}
    (ht : ty = 2#8 ∨ ty = 4#8) (hlen : maxBlockLength < length) (h24 : length < 2 ^ 24)
    (hc : Continues o first more)
    (hd : src.Delivers (streamMarker ++ metadataBytes (first :: more) ++ headerBytes isLast ty length ++ rest) fault)
    (hf : (streamMarker ++ metadataBytes (first :: more) ++ headerBytes isLast ty length ++ rest).length < 4 * fuel) :
    ∃ msg, FlacReader.newExt fuel src o = .error (.err (.unsupported msg)) := by
  obtain ⟨msg, hb⟩ := refused_large isLast ht hlen h24
  exact ⟨msg, refused_opening hd hf ⟨_, rest, rfl, .block first more hc _ _ hb⟩⟩

/-- **C92, for application and Vorbis comment blocks.** The same if it is the first block. -/
theorem C92_first_partial {ty : U8} {isLast : Bool} {length : Nat}
    (ht : ty = 2#8 ∨ ty = 4#8) (hlen : maxBlockLength < length) (h24 : length < 2 ^ 24)
    (hd : src.Delivers (streamMarker ++ headerBytes isLast ty length ++ rest) fault)
    (hf : (streamMarker ++ headerBytes isLast ty length ++ rest).length < 4 * fuel) :
    ∃ msg, FlacReader.newExt fuel src o = .error (.err (.unsupported msg)) := by
  obtain ⟨msg, hb⟩ := refused_large isLast ht hlen h24
  exact ⟨msg, refused_opening hd hf ⟨_, rest, rfl, .first _ _ hb⟩⟩

/-- **C92.** Opening a stream yields `Unsupported` only for that reason: after the marker and legal blocks comes an
application or Vorbis comment block of more than 10 MiB. -/
theorem C92_only {msg : String} (hd : src.Delivers bytes fault)
    (h : FlacReader.newExt fuel src o = .error (.err (.unsupported msg))) :
    ∃ (blocks : List EncodedBlock) (isLast : Bool) (ty : U8) (length : Nat) (rest : List U8),
      bytes = streamMarker ++ metadataBytes blocks ++ headerBytes isLast ty length ++ rest ∧
      (ty = 2#8 ∨ ty = 4#8) ∧ maxBlockLength < length ∧ length < 2 ^ 24 := by
  have hblock : ∀ {u : List U8}, RefusedBlock u (.unsupported msg) → ∃ (isLast : Bool) (ty : U8) (length : Nat),
      u = headerBytes isLast ty length ∧ (ty = 2#8 ∨ ty = 4#8) ∧ maxBlockLength < length ∧ length < 2 ^ 24 := by
    intro u hu
    cases hu with
    | mk isLast ty length ht hl body _ hr =>
      cases hr with
      | largeApplication _ hlen => exact ⟨isLast, _, length, by simp [headerBytes], .inl rfl, hlen, hl⟩
      | largeComments _ hlen => exact ⟨isLast, _, length, by simp [headerBytes], .inr rfl, hlen, hl⟩
  rcases opening_refused hd h with he | ⟨used, rest, rfl, hr⟩
  · cases he
  · cases hr with
    | first u _ hu =>
      obtain ⟨isLast, ty, length, rfl, h1, h2, h3⟩ := hblock hu
      exact ⟨[], isLast, ty, length, rest, by simp [metadataBytes], h1, h2, h3⟩
    | block first more _ u _ hu =>
      obtain ⟨isLast, ty, length, rfl, h1, h2, h3⟩ := hblock hu
      exact ⟨first :: more, isLast, ty, length, rest, rfl, h1, h2, h3⟩

theorem continues_padding : Continues .default (infoBlock false) [paddingBlock false] := by
  refine ⟨⟨_, rfl⟩, ?_, by decide, ?_⟩
  · intro b hb
    rw [List.mem_singleton] at hb
    subst hb
    rintro ⟨_, h⟩
    cases h
  · intro fewer hp
    rcases List.prefix_cons_iff.mp hp with rfl | ⟨t, rfl, ht⟩
    · rintro (h | ⟨h, _⟩) <;> exact absurd h (by decide)
    · rw [List.prefix_nil.mp ht]
      rintro (h | ⟨h, _⟩) <;> exact absurd h (by decide)

/-- A file of 53 bytes that claims to contain an application block of 16 MiB. -/
example : (∃ msg, FlacReader.new 16 (memory (streamMarker ++
      metadataBytes [infoBlock false, paddingBlock false] ++ headerBytes true 2#8 16777215)) =
        .error (.err (.unsupported msg))) ∧
    (streamMarker ++ metadataBytes [infoBlock false, paddingBlock false] ++
      headerBytes true 2#8 16777215).length = 53 :=
  ⟨C92_partial (rest := []) (length := 16777215) (.inl rfl) (by decide) (by decide) continues_padding
    (by rw [List.append_nil]; exact memory_delivers _) (by decide), by decide⟩

/-- With `metadata_only` and `read_vorbis_comment`, blocks after the Vorbis comment are not read. Such a block is
not rejected. -/
example : ¬ Continues { metadataOnly := true, readVorbisComment := true } (infoBlock false) [commentBlock false] := by
  intro h
  exact h.necessary [commentBlock false] (List.prefix_refl _)
    (.inr ⟨rfl, by simp, fun _ => by decide⟩)

end Claxon.Props
