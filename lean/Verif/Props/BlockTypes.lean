import Verif.Spec.BlockTypes
import Verif.Props.Metadata

/-! # C75: metadata blocks are reported as what they are

Seek tables, cue sheets and pictures are not: there are variants of `MetadataBlock` for them, but they are reported as
padding. -/

namespace Claxon.Props

open Claxon Spec ReadBytes

variable {r r' : BufferedReader} {bytes rest : List U8} {fault : Option Nat}

theorem body_type {blockType : U8} {body : List U8} {block : MetadataBlock} (h : BodyEncodes blockType body block) :
    (blockType ∉ unreadTypes → HasType blockType block) ∧
      (blockType ∈ unreadTypes → block = .padding body.length) := by
  cases h with
  | streamInfo info h => exact ⟨fun _ => rfl, fun h => absurd h (by decide)⟩
  | padding _ h _ =>
    refine ⟨fun hn => ?_, fun _ => rfl⟩
    simp only [List.mem_cons, List.not_mem_nil, or_false, unreadTypes, not_or] at h hn
    rcases h with h | h | h | h
    · exact h
    · exact absurd h hn.1
    · exact absurd h hn.2.1
    · exact absurd h hn.2.2
  | application _ _ _ => exact ⟨fun _ => rfl, fun h => absurd h (by decide)⟩
  | vorbisComment _ _ _ _ _ => exact ⟨fun _ => rfl, fun h => absurd h (by decide)⟩
  | reserved _ h _ =>
    refine ⟨fun _ => h, fun hm => ?_⟩
    simp only [List.mem_cons, List.not_mem_nil, or_false, unreadTypes] at hm
    rcases hm with rfl | rfl | rfl <;> exact absurd h.1 (by decide)

/-- **C75, for a block whose type and length the user knows.** It is reported as a block of its type, but for seek
tables, cue sheets and pictures, which are reported as padding, of their length. -/
theorem C75_body_partial {blockType : U8} {length : Nat} {block : MetadataBlock} (hlen : length < 2 ^ 32)
    (hr : r.Remaining bytes fault) (h : readMetadataBlock blockType length r = (.ok block, r')) :
    (blockType ∉ unreadTypes → HasType blockType block) ∧ (blockType ∈ unreadTypes → block = .padding length) := by
  obtain ⟨used, rest, h1, h2, rfl, h4⟩ := (btriple_body (lim := .never) blockType length).buffered
    ((simAllBuffered fault).full.readMetadataBlock _ _ hlen) hr h
  exact body_type h4

/-- The iterator yields all blocks of complete metadata. -/
theorem calls_complete {blocks : List EncodedBlock} (hc : Complete blocks)
    (hr : r.Remaining (metadataBytes blocks ++ rest) fault) (n : Nat) :
    calls MetadataBlockReader.next n (MetadataBlockReader.new r) =
      (List.range n).map fun k => .ok (blocks[k]?.map fun b => .ok b.block) := by
  obtain ⟨init, b, rfl, h1, h2⟩ := hc
  have hnext : ∀ {r : BufferedReader} {b : EncodedBlock} {rest}, r.Remaining (b.bytes ++ rest) fault → ∃ r',
      MetadataBlockReader.next (MetadataBlockReader.new r) =
        (.ok (some (.ok b.block)), { input := r', done := b.isLast }) ∧ r'.Remaining rest fault := by
    intro r b rest hr
    obtain ⟨r', h3, h4⟩ := (breads_block b).buffered (simBlock fault) hr
    refine ⟨r', ?_, h4⟩
    rw [MetadataBlockReader.new, next_block_run, h3]
  induction init generalizing r n with
  | nil =>
    rw [List.nil_append, metadataBytes_cons, List.append_assoc] at hr
    obtain ⟨r', h3, -⟩ := hnext hr
    cases n with
    | zero => rfl
    | succ n =>
      rw [calls, h3, List.range_succ_eq_map, List.map_cons, List.map_map]
      rw [h1, (C43_none (MetadataBlockReader.next_done _ rfl)).2 n]
      refine congrArg (_ :: ·) ?_
      refine List.ext_getElem (by simp) fun i h4 h5 => ?_
      simp
  | cons a init ih =>
    rw [List.cons_append, metadataBytes_cons, List.append_assoc] at hr
    obtain ⟨r', h3, h4⟩ := hnext hr
    cases n with
    | zero => rfl
    | succ n =>
      rw [calls, h3, List.range_succ_eq_map, List.map_cons, List.map_map, h2 a (by simp)]
      have := ih n h4 (fun c hc => h2 c (by simp [hc]))
      rw [MetadataBlockReader.new] at this
      rw [this]
      refine congrArg (_ :: ·) ?_
      refine List.map_congr_left fun k _ => ?_
      simp

/-- **C75, for all blocks of a stream.** Iterating over legal metadata yields, in order, an item for every block, and
then nothing. It is a block of the type that the stream says, but for seek tables, cue sheets and pictures, which are
reported as padding, of their length. -/
theorem C75_blocks_partial {blocks : List EncodedBlock} (hc : Complete blocks)
    (hr : r.Remaining (metadataBytes blocks ++ rest) fault) :
    ∃ found : List MetadataBlock,
      (∀ n, calls MetadataBlockReader.next n (MetadataBlockReader.new r) =
        (List.range n).map fun k => .ok (found[k]?.map .ok)) ∧
      List.Forall₂ (fun b m => (b.blockType ∉ unreadTypes → HasType b.blockType m) ∧
        (b.blockType ∈ unreadTypes → m = .padding b.body.length)) blocks found := by
  refine ⟨blocks.map EncodedBlock.block, fun n => ?_, ?_⟩
  · rw [calls_complete hc hr n]
    simp [Function.comp_def]
  · rw [List.forall₂_map_right_iff, List.forall₂_same]
    exact fun b _ => body_type b.encodes

/-- **C75.** No input, of whatever reader, is reported as a seek table, a cue sheet or a picture. -/
theorem C75_never {σ : Type} [ReadBytes σ] [Build] (blockType : U8) (length : Nat) (s s' : σ) {block : MetadataBlock}
    (h : readMetadataBlock blockType length s = (.ok block, s')) :
    (∀ seekpoints, block ≠ .seekTable seekpoints) ∧ block ≠ .cueSheet ∧ block ≠ .picture := by
  have hp : ∀ (m : Dec σ Unit) (b : MetadataBlock) (s s' : σ), (m >>= fun _ => pure b) s = (.ok block, s') →
      block = b := by
    intro m b s s' h
    rw [Dec.bind_def] at h
    generalize m s = x at h
    rcases x with ⟨e | u, t⟩ <;> cases h
    rfl
  unfold readMetadataBlock at h
  split at h
  · split at h
    · rw [Dec.bind_def] at h
      generalize readStreaminfoBlock s = x at h
      rcases x with ⟨e | u, t⟩ <;> cases h
      exact ⟨nofun, nofun, nofun⟩
    · cases h
  split at h
  · rw [hp _ _ _ _ h]; exact ⟨nofun, nofun, nofun⟩
  split at h
  · rw [Dec.bind_def] at h
    generalize readApplicationBlock length s = x at h
    rcases x with ⟨e | ⟨u, v⟩, t⟩ <;> cases h
    exact ⟨nofun, nofun, nofun⟩
  split at h
  · rw [hp _ _ _ _ h]; exact ⟨nofun, nofun, nofun⟩
  split at h
  · rw [Dec.bind_def] at h
    generalize readVorbisCommentBlock length s = x at h
    rcases x with ⟨e | u, t⟩ <;> cases h
    exact ⟨nofun, nofun, nofun⟩
  split at h
  · rw [hp _ _ _ _ h]; exact ⟨nofun, nofun, nofun⟩
  split at h
  · rw [hp _ _ _ _ h]; exact ⟨nofun, nofun, nofun⟩
  split at h
  · cases h
  · rw [hp _ _ _ _ h]; exact ⟨nofun, nofun, nofun⟩

/-- A seek table with one seek point, for the sample number 0. -/
def seekTableBlock (isLast : Bool) : EncodedBlock where
  isLast := isLast
  blockType := 3#8
  body := List.replicate 16 0#8 ++ [0x10#8, 0#8]
  block := .padding 18
  encodes := .padding _ (by decide) _
  typeLt := by decide
  lengthLt := by decide

/-- **C75 is not true.** -/
theorem C75_false : ¬ ∀ (blocks : List EncodedBlock) (r : BufferedReader) (found : List MetadataBlock),
    Complete blocks → r.Remaining (metadataBytes blocks) none →
    (∀ n, calls MetadataBlockReader.next n (MetadataBlockReader.new r) =
        (List.range n).map fun k => .ok (found[k]?.map .ok)) →
    List.Forall₂ (fun b m => HasType b.blockType m) blocks found := by
  intro h
  have hc : Complete [infoBlock false, seekTableBlock true] :=
    ⟨[infoBlock false], seekTableBlock true, rfl, rfl, by simp [infoBlock]⟩
  have hr := bytewise_remaining (metadataBytes [infoBlock false, seekTableBlock true])
  have hr' : (BufferedReader.new (bytewise (metadataBytes [infoBlock false, seekTableBlock true]))).Remaining
      (metadataBytes [infoBlock false, seekTableBlock true] ++ []) none := by rw [List.append_nil]; exact hr
  have h1 := h _ _ [.streamInfo exampleInfo, .padding 18] hc hr fun n => by
    rw [calls_complete hc hr' n]
    refine List.map_congr_left fun k _ => ?_
    rcases k with _ | _ | k <;> rfl
  cases h1 with
  | cons _ h2 => cases h2 with
    | cons h3 _ => exact absurd (show 3#8 = 1#8 from h3) (by decide)

/-- A stream with blocks of four types, one of them a seek table. -/
example : ∃ r : BufferedReader, Complete [infoBlock false, seekTableBlock false, paddingBlock false, commentBlock true] ∧
    r.Remaining (metadataBytes [infoBlock false, seekTableBlock false, paddingBlock false, commentBlock true] ++ [])
      none :=
  ⟨_, ⟨[infoBlock false, seekTableBlock false, paddingBlock false], commentBlock true, rfl, rfl,
    by simp [infoBlock, seekTableBlock, paddingBlock]⟩, bytewise_remaining _⟩

example : ∃ r', readMetadataBlock 3#8 18 (BufferedReader.new (bytewise ((seekTableBlock true).body ++ [9#8]))) =
    (.ok (.padding 18), r') ∧ r'.Remaining [9#8] none :=
  (breads_body (seekTableBlock true).encodes).buffered ((simAllBuffered none).full.readMetadataBlock _ _ (by decide))
    (bytewise_remaining _)

end Claxon.Props
