import Verif.Proof.MetadataApi
import Verif.Props.Example

/-! # Metadata for the examples -/

namespace Claxon.Props

open Claxon Spec

/-- A streaminfo, with an unknown minimum frame size. -/
def exampleInfo : StreamInfo where
  minBlockSize := 16
  maxBlockSize := 4096
  minFrameSize := none
  maxFrameSize := some 1000
  sampleRate := 44100
  channels := 2
  bitsPerSample := 16
  samples := some 4
  md5sum := List.replicate 16 0xab#8

theorem exampleInfo_legal : exampleInfo.Legal :=
  ⟨by decide, by decide, by decide, by decide, by decide, by decide, by decide, by decide, by decide,
    by decide, by decide⟩

/-- Two tags, with an empty comment in between. -/
def exampleEntries : List (Option Tag) :=
  [some ⟨textBytes "Title".toList, textBytes "a=é".toList⟩, none, some ⟨textBytes "ARTIST".toList, []⟩]

theorem exampleEntries_legal : ∀ t ∈ tagsOf exampleEntries, t.Legal := by
  have h : tagsOf exampleEntries =
      [⟨textBytes "Title".toList, textBytes "a=é".toList⟩, ⟨textBytes "ARTIST".toList, []⟩] := rfl
  rw [h]
  intro t ht
  rcases List.mem_cons.1 ht with rfl | ht
  · exact ⟨by decide +kernel, ⟨_, rfl⟩⟩
  · rcases List.mem_cons.1 ht with rfl | ht
    · exact ⟨by decide +kernel, ⟨[], rfl⟩⟩
    · simp at ht

/-- A vendor string. -/
def exampleVendor : Str := textBytes "claxon ♪".toList

theorem exampleVendor_utf8 : Utf8 exampleVendor := ⟨_, rfl⟩

theorem exampleComments_encodes : BodyEncodes 4#8 (vorbisCommentBytes exampleVendor exampleEntries)
    (.vorbisComment { vendor := exampleVendor, comments := storedTags (tagsOf exampleEntries) }) :=
  .vorbisComment _ _ exampleVendor_utf8 exampleEntries_legal (by decide +kernel)

/-- A streaminfo block. -/
def infoBlock (isLast : Bool) : EncodedBlock where
  isLast := isLast
  blockType := 0#8
  body := streaminfoBytes exampleInfo
  block := .streamInfo exampleInfo
  encodes := .streamInfo _ exampleInfo_legal
  typeLt := by decide
  lengthLt := by decide +kernel

/-- A padding block. -/
def paddingBlock (isLast : Bool) : EncodedBlock where
  isLast := isLast
  blockType := 1#8
  body := [0#8, 0#8, 0#8]
  block := .padding 3
  encodes := .padding _ (by decide) _
  typeLt := by decide
  lengthLt := by decide

/-- A Vorbis comment block. -/
def commentBlock (isLast : Bool) : EncodedBlock where
  isLast := isLast
  blockType := 4#8
  body := vorbisCommentBytes exampleVendor exampleEntries
  block := .vorbisComment { vendor := exampleVendor, comments := storedTags (tagsOf exampleEntries) }
  encodes := exampleComments_encodes
  typeLt := by decide
  lengthLt := by decide +kernel

theorem prefix_two {α : Type} {fewer : List α} {x y : α} (h : fewer <+: [x, y]) :
    fewer = [] ∨ fewer = [x] ∨ fewer = [x, y] := by
  obtain ⟨t, h⟩ := h
  match fewer, h with
  | [], _ => exact .inl rfl
  | [a], h => simp at h; exact .inr (.inl (by rw [h.1]))
  | [a, b], h => simp at h; exact .inr (.inr (by rw [h.1, h.2.1]))
  | a :: b :: c :: l, h => simp at h

/-- Metadata that is read entirely: streaminfo, padding and a Vorbis comment. -/
theorem exampleMetadata : Metadata .default (infoBlock false) [paddingBlock false, commentBlock true]
    exampleInfo
    (some { vendor := exampleVendor, comments := storedTags (tagsOf exampleEntries) }) where
  streaminfo := rfl
  onlyOne := by
    intro b hb
    rcases List.mem_cons.1 hb with rfl | hb
    · rintro ⟨_, ⟨⟩⟩
    · rcases List.mem_cons.1 hb with rfl | hb
      · rintro ⟨_, ⟨⟩⟩
      · simp at hb
  comments := by decide
  comment := rfl
  enough := .inl rfl
  necessary := by
    intro fewer h1 h2
    rcases prefix_two h1 with rfl | rfl | rfl
    · rintro (h | ⟨h, _⟩) <;> cases h
    · rintro (h | ⟨h, _⟩) <;> cases h
    · exact absurd rfl h2

end Claxon.Props
