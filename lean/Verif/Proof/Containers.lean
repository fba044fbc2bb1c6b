import Verif.Spec.Containers
import Verif.Proof.ExamplesFile
import Verif.Proof.MetadataApi

/-! # The example programs for Ogg and MP4 files -/

namespace Claxon

open Spec ReadBytes Props

variable {α : Type}

/-! ### Cursors -/

theorem CursorRel.ok {data : List U8} {m : Dec Cursor α} {m' : Dec Flat α} {a : α} {c : Cursor} {t t' : Flat}
    (hm : Sim (CursorRel data) IsEof True m m') (hR : CursorRel data c t) (h : m' t = (.ok a, t')) :
    ∃ c', m c = (.ok a, c') ∧ CursorRel data c' t' := by
  rcases hm c t hR with ⟨h1, h2⟩ | ⟨f, h1, h2, h3⟩
  · rw [h] at h1 h2
    exact ⟨(m c).2, Prod.ext h1 rfl, h2⟩
  · rw [h] at h3
    exact absurd (h3 trivial) (by simp)

theorem CursorRel.result {data : List U8} {m : Dec Cursor α} {m' : Dec Flat α} {c : Cursor} {t : Flat}
    (hm : Sim (CursorRel data) IsEof True m m') (hR : CursorRel data c t) : (m c).1 = (m' t).1 := by
  rcases hm c t hR with ⟨h1, h2⟩ | ⟨f, h1, h2, h3⟩
  · exact h1
  · rw [h1, h3 trivial]

theorem CursorRel.cases {data : List U8} {m : Dec Cursor α} {m' : Dec Flat α} {c : Cursor} {t : Flat}
    (hm : Sim (CursorRel data) IsEof True m m') (hR : CursorRel data c t) (hr : Returns (m' t).1) :
    (∃ e, (m c).1 = .error (.err e)) ∨ ∃ a c' t', m c = (.ok a, c') ∧ CursorRel data c' t' := by
  rcases hm c t hR with ⟨h1, h2⟩ | ⟨f, h1, h2, h3⟩
  · rcases hr with ⟨a, h⟩ | ⟨e, h⟩
    · exact .inr ⟨a, _, _, Prod.ext (h1.trans h) rfl, h2⟩
    · exact .inl ⟨e, h1.trans h⟩
  · obtain ⟨e, rfl⟩ := h2.isErr
    exact .inl ⟨e, h1⟩

/-- Cursors over a list of bytes that begins with `bytes`. -/
theorem BReads.cursor {data bytes rest : List U8} {m : Dec Cursor α} {m' : Dec Flat α} {a : α} {c : Cursor}
    (hb : BReads m' bytes a) (hm : Sim (CursorRel data) IsEof True m m')
    (hR : CursorRel data c (Flat.ofBytes (bytes ++ rest))) :
    ∃ c', m c = (.ok a, c') ∧ CursorRel data c' (Flat.ofBytes rest) :=
  CursorRel.ok hm hR (hb rest none)

namespace Examples

theorem breads_withHeader (b : EncodedBlock) : BReads readMetadataBlockWithHeader b.bytes b.block := by
  rw [readMetadataBlockWithHeader_eq]
  exact (breads_block b).bind_nil (.pure _)

/-- A frame, read with a cursor. -/
theorem cursor_frame (e : Encoded) (buffer : VecI32) (hl : (e.frame.bytes e.bps).length < 2 ^ 63) :
    ∃ b c, readNextOrEof buffer (cursorOf (e.frame.bytes e.bps)) = (.ok (some b), c) ∧
      b.channels = e.channels.length ∧ blockSamples b =
        ((interleave e.frame.header.blockSize.size e.channels).map (BitVec.ofInt 32)).map .ok := by
  have hw := e.encodes.legal.wellFormed
  obtain ⟨c, h1, -⟩ := CursorRel.ok ((simCursorRd _).readNextOrEof buffer)
    (CursorRel.new (data := e.frame.bytes e.bps) hl)
    (t' := ⟨[], none⟩) (a := some (blockOf e.frame buffer)) (by
      have := reads_frame hw buffer [] none
      rwa [List.append_nil] at this)
  have hh : (blockOf e.frame buffer).Holds e.frame.header.time e.channels := by
    rw [← encodes_channels e.encodes]
    exact blockOf_holds hw buffer
  exact ⟨_, c, h1, hh.count, encoded_samples (post_block buffer _ _ _ h1 _ rfl) hh⟩

/-- The samples of a block with two channels are written. -/
theorem writeStereo_append {σ : Type} [ReadBytes σ] {buffer : VecI32} {b : Block} {s s' : σ} {xs : List I32}
    (h : readNextOrEof buffer s = (.ok (some b), s')) (h2 : b.channels = 2) (hx : blockSamples b = xs.map .ok)
    (w : Option (Wav I32)) : writeStereo b w = (.ok (), w.map (·.append xs)) := by
  obtain ⟨ys, h3, h4⟩ := writeStereo_of h h2
  rw [hx] at h3
  obtain rfl : xs = ys := List.map_injective_iff.2 (fun a b h => by cases h; rfl) h3
  exact h4 w

/-! ### Ogg -/

theorem framePackets_of {packets : List Packet} {es : List Encoded} (h : OggFrames packets es)
    (hl : ∀ p ∈ packets, p.length < 2 ^ 63) (h2 : ∀ e ∈ es, e.channels.length = 2) :
    ∀ (buffer : VecI32) (w : Option (Wav I32)), framePackets packets buffer w =
      (.ok (), w.map (·.append ((Encoded.samples es).map (BitVec.ofInt 32)))) := by
  induction h with
  | nil => intro buffer w; rw [framePackets]; exact congrArg _ (Wav.append_nil w).symm
  | empty h ih =>
    intro buffer w
    rw [framePackets, if_pos (by rfl)]
    exact ih (fun p hp => hl p (List.mem_cons_of_mem _ hp)) h2 buffer w
  | frame e h ih =>
    rename_i packets es
    intro buffer w
    obtain ⟨b, c, h3, h4, h5⟩ := cursor_frame e buffer (hl _ List.mem_cons_self)
    rw [h2 e List.mem_cons_self] at h4
    have hne : ¬ (e.frame.bytes e.bps).length = 0 := by
      intro h0
      rw [List.length_eq_zero_iff] at h0
      rw [h0] at h3
      have : readNextOrEof buffer (cursorOf []) = (.ok none, cursorOf []) := rfl
      rw [this] at h3
      cases h3
    rw [framePackets, if_neg hne, decodeFrame, h3, bind_assoc, Dec.bind_liftM_of (show expectBlock _ = .ok b from rfl), bind_assoc,
      Dec.bind_ok _ (writeStereo_append h3 h4 h5 w)]
    show framePackets packets _ _ = _
    rw [ih (fun p hp => hl p (List.mem_cons_of_mem _ hp)) (fun e he => h2 e (List.mem_cons_of_mem _ he)),
      Wav.append_append, ← List.map_append]
    rfl

theorem skipHeaders_of {packets : List Packet} : ∀ (more : List (EncodedBlock × List U8)),
    (∀ p ∈ more, (p.1.bytes ++ p.2).length < 2 ^ 63) →
    skipHeaders more.length (more.map (fun p => p.1.bytes ++ p.2) ++ packets) = .ok packets
  | [], _ => rfl
  | (b, rest) :: more, hl => by
    obtain ⟨c, h1, -⟩ := (breads_withHeader b).cursor (simAllCursor _).full.readMetadataBlockWithHeader
      (CursorRel.new (hl (b, rest) List.mem_cons_self))
    show skipHeaders (more.length + 1) ((b.bytes ++ rest) :: (more.map _ ++ packets)) = _
    rw [skipHeaders, cursorOf, h1]
    exact skipHeaders_of more fun p hp => hl p (List.mem_cons_of_mem _ hp)

theorem readFirstPacket_of {magic signature rest : List U8} {n : Nat} {first : EncodedBlock} {info : StreamInfo}
    (hm : magic.length = 7) (hs : signature.length = 4) (hn : n < 2 ^ 16) (hi : first.block = .streamInfo info)
    (hl : (oggFirst magic n signature first ++ rest).length < 2 ^ 63) :
    readFirstPacket (oggFirst magic n signature first ++ rest) = .ok (info, n) := by
  have hsim := (simAllCursor (oggFirst magic n signature first ++ rest)).full
  have h0 := CursorRel.new hl
  generalize hd : oggFirst magic n signature first ++ rest = data at *
  have e : data = magic ++ (beBytes 2 n ++ (signature ++ (first.bytes ++ rest))) := by
    rw [← hd, oggFirst]; simp only [List.append_assoc]
  conv at h0 => arg 3; rw [e]
  obtain ⟨c1, h1, h1'⟩ := (breads_skip magic).cursor (hsim.skip _ (by omega)) h0
  obtain ⟨c2, h2, h2'⟩ := (breads_beU16 hn).cursor hsim.toSimU8.readBeU16 h1'
  obtain ⟨c3, h3, h3'⟩ := (breads_skip signature).cursor (hsim.skip _ (by omega)) h2'
  obtain ⟨c4, h4, -⟩ := (breads_withHeader first).cursor hsim.readMetadataBlockWithHeader h3'
  rw [hm] at h1
  rw [hs] at h3
  unfold readFirstPacket
  dsimp only
  rw [cursorOf, Dec.bind_ok _ h1, Dec.bind_ok _ h2, Dec.bind_ok _ h3, Dec.bind_ok _ h4, hi]
  show Except.ok _ = _
  rw [BitVec.toNat_ofNat, Nat.mod_eq_of_lt hn]

/-- It succeeded, or panicked deliberately. -/
def Fine (x : Except Fail α) : Prop := (∃ a, x = .ok a) ∨ x = .error (.panic .explicit)

theorem fine_expect {x : Res α} (h : Returns x) : Fine (expect x) := by
  rcases h with ⟨a, rfl⟩ | ⟨e, rfl⟩
  · exact .inl ⟨a, rfl⟩
  · exact .inr rfl

theorem flat_returns {m : Dec Flat α} {P : List U8 → α → Prop} (h : BTriple .never m P) (t : Flat) :
    Returns (m t).1 := by
  have h := h t
  generalize m t = x at h
  rcases x with ⟨⟨e | _ | _ | _⟩ | a, s⟩
  · exact .inr ⟨e, rfl⟩
  · exact h.elim
  · exact h.elim
  · exact h.elim
  · exact .inl ⟨a, rfl⟩

theorem flat_withHeader (t : Flat) : Returns (readMetadataBlockWithHeader t).1 := by
  have ht : BTriple .never readMetadataBlockWithHeader (fun _ _ => True) := by
    rw [readMetadataBlockWithHeader_eq]
    exact btriple_block.bind fun _ _ _ => .pure trivial
  exact flat_returns ht t

theorem flat_skip (n : Nat) (t : Flat) : Returns (ReadBytes.skip n t : Except Fail Unit × Flat).1 := by
  change Returns (Flat.skip n t).1
  unfold Flat.skip
  split
  · exact .inl ⟨(), rfl⟩
  · rcases hf : t.fault with _ | _ <;> simp [Returns, Flat.endFail]

theorem flat_readBeU16 (t : Flat) : Returns (readBeU16 t : Except Fail U16 × Flat).1 :=
  flat_returns btriple_readBeU16 t

theorem readFirstPacket_fine {packet : Packet} (hl : packet.length < 2 ^ 63) : Fine (readFirstPacket packet) := by
  have hsim := (simAllCursor packet).full
  have h0 := CursorRel.new hl
  unfold readFirstPacket
  dsimp only
  rw [cursorOf]
  rcases CursorRel.cases (hsim.skip 7 (by omega)) h0 (flat_skip 7 _) with ⟨e, h⟩ | ⟨_, c1, t1, h, h1⟩
  · rw [Dec.bind_def]
    generalize ReadBytes.skip 7 (Cursor.mk packet 0) = x at h
    rcases x with ⟨x, c⟩
    cases h
    exact .inr rfl
  rw [Dec.bind_ok _ h]
  rcases CursorRel.cases hsim.toSimU8.readBeU16 h1 (flat_readBeU16 _) with ⟨e, h⟩ | ⟨_, c2, t2, h, h2⟩
  · rw [Dec.bind_def]
    generalize readBeU16 c1 = x at h
    rcases x with ⟨x, c⟩
    cases h
    exact .inr rfl
  rw [Dec.bind_ok _ h]
  rcases CursorRel.cases (hsim.skip 4 (by omega)) h2 (flat_skip 4 _) with ⟨e, h⟩ | ⟨_, c3, t3, h, h3⟩
  · rw [Dec.bind_def]
    generalize ReadBytes.skip 4 c2 = x at h
    rcases x with ⟨x, c⟩
    cases h
    exact .inr rfl
  rw [Dec.bind_ok _ h]
  rcases CursorRel.cases hsim.readMetadataBlockWithHeader h3 (flat_withHeader _) with ⟨e, h⟩ | ⟨b, c4, t4, h, -⟩
  · rw [Dec.bind_def]
    generalize readMetadataBlockWithHeader c3 = x at h
    rcases x with ⟨x, c⟩
    cases h
    exact .inr rfl
  rw [Dec.bind_ok _ h]
  cases b with
  | streamInfo i => exact .inl ⟨_, rfl⟩
  | _ => exact .inr rfl

theorem skipHeaders_fine : ∀ (n : Nat) (packets : List Packet), (∀ p ∈ packets, p.length < 2 ^ 63) →
    skipHeaders n packets = .error (.panic .explicit) ∨
      ∃ left, skipHeaders n packets = .ok left ∧ left <:+ packets
  | 0, packets, _ => .inr ⟨packets, rfl, List.suffix_rfl⟩
  | n + 1, [], _ => .inl rfl
  | n + 1, packet :: packets, hl => by
    have hr : Returns (readMetadataBlockWithHeader (cursorOf packet) : Except Fail _ × Cursor).1 := by
      rw [cursorOf, CursorRel.result (simAllCursor packet).full.readMetadataBlockWithHeader
        (CursorRel.new (hl packet List.mem_cons_self))]
      exact flat_withHeader _
    rw [skipHeaders]
    rcases fine_expect hr with ⟨a, h⟩ | h
    · rw [h]
      rcases skipHeaders_fine n packets fun p hp => hl p (List.mem_cons_of_mem _ hp) with h | ⟨left, h, h'⟩
      · exact .inl h
      · exact .inr ⟨left, h, h'.trans (List.suffix_cons _ _)⟩
    · rw [h]
      exact .inl rfl

theorem framePackets_fine : ∀ (packets : List Packet) (buffer : VecI32) (w : Option (Wav I32)),
    (∀ p ∈ packets, p.length < 2 ^ 63) → Fine (framePackets packets buffer w).1 ∨
      (framePackets packets buffer w).1 = .error (.panic .overflow) ∧ ∃ p ∈ packets, LongZeros (bytesToBits p)
  | [], _, _, _ => .inl (.inl ⟨(), rfl⟩)
  | packet :: packets, buffer, w, hp => by
    have hrest : ∀ p ∈ packets, p.length < 2 ^ 63 := fun p h => hp p (List.mem_cons_of_mem _ h)
    have hl := hp packet List.mem_cons_self
    have more : ∀ {x : Except Fail Unit}, Fine x ∨ x = .error (.panic .overflow) ∧
        (∃ p ∈ packets, LongZeros (bytesToBits p)) → Fine x ∨ x = .error (.panic .overflow) ∧
        ∃ p ∈ packet :: packets, LongZeros (bytesToBits p) := by
      rintro x (h | ⟨h, p, hp, hz⟩)
      · exact .inl h
      · exact .inr ⟨h, p, List.mem_cons_of_mem _ hp, hz⟩
    rw [framePackets]
    by_cases h0 : packet.length = 0
    · rw [if_pos h0]
      exact more (framePackets_fine packets buffer w hrest)
    rw [if_neg h0, decodeFrame, bind_assoc]
    have hr : Returns (readNextOrEof buffer (cursorOf packet) : Except Fail _ × Cursor).1 ∨
        (readNextOrEof buffer (cursorOf packet) : Except Fail _ × Cursor).1 = .error (.panic .overflow) ∧
          LongZeros (bytesToBits packet) := by
      rw [cursorOf, CursorRel.result ((simCursorRd packet).readNextOrEof buffer) (CursorRel.new hl)]
      exact frame_overflows buffer _
    rcases hx : (readNextOrEof buffer (cursorOf packet) : Except Fail _ × Cursor) with ⟨f | _ | b, c⟩
    · rw [hx] at hr
      rcases hr with (⟨_, hr⟩ | ⟨e, hr⟩) | ⟨hr, hz⟩ <;> cases hr
      · exact .inl (.inr rfl)
      · exact .inr ⟨rfl, packet, List.mem_cons_self, hz⟩
    · exact .inl (.inr rfl)
    · rw [Dec.bind_liftM_of (show expectBlock _ = .ok b from rfl), bind_assoc]
      by_cases h2 : b.channels = 2
      · obtain ⟨xs, -, h4⟩ := writeStereo_of hx h2
        rw [Dec.bind_ok _ (h4 w)]
        exact more (framePackets_fine packets _ _ hrest)
      · left
        right
        unfold writeStereo
        rw [C29_notStereo h2]
        rfl

/-! ### MP4 -/

theorem getStreaminfo_of {info : StreamInfo} {ty : U8} {body : List U8}
    (hb : BodyEncodes ty body (.streamInfo info)) (hlb : body.length < 2 ^ 32) {after : List (U8 × List U8)} :
    ∀ (before : List EncodedBlock), (∀ b ∈ before, ¬ IsStreaminfo b) →
      getStreaminfo (before.map (fun b => (b.blockType, b.body)) ++ (ty, body) :: after) = .ok (some info)
  | [], _ => by
    obtain ⟨c, h1, -⟩ := (breads_body hb).cursor (rest := [])
      ((simAllCursor body).full.readMetadataBlock ty body.length hlb)
      (by rw [List.append_nil]; exact CursorRel.new (by omega))
    rw [List.map_nil, List.nil_append, getStreaminfo, Nat.mod_eq_of_lt hlb, cursorOf, h1]
    rfl
  | b :: before, hbef => by
    have hlb' := b.lengthLt
    obtain ⟨c, h1, -⟩ := (breads_body b.encodes).cursor (rest := [])
      ((simAllCursor b.body).full.readMetadataBlock b.blockType b.body.length (by omega))
      (by rw [List.append_nil]; exact CursorRel.new (by omega))
    rw [List.map_cons, List.cons_append, getStreaminfo, Nat.mod_eq_of_lt (by omega), cursorOf, h1]
    have hne := hbef b List.mem_cons_self
    have ih := getStreaminfo_of hb hlb (after := after) before fun b hb => hbef b (List.mem_cons_of_mem _ hb)
    cases hblk : b.block with
    | streamInfo i => exact absurd ⟨i, hblk⟩ hne
    | _ => exact ih

theorem decodeFrames_of (es : List Encoded) (h2 : ∀ e ∈ es, e.channels.length = 2) {rest : List U8}
    {fault : Option Nat} : ∀ (r : BufferedReader) (buffer : VecI32) (w : Option (Wav I32)),
    r.Remaining (Encoded.stream es ++ rest) fault → decodeFrames es.length buffer r w =
      (.ok (), w.map (·.append ((Encoded.samples es).map (BitVec.ofInt 32)))) := by
  induction es with
  | nil => intro r buffer w _; rw [List.length_nil, decodeFrames]; exact congrArg _ (Wav.append_nil w).symm
  | cons e es ih =>
    intro r buffer w hr
    have hr' : r.Remaining (e.frame.bytes e.bps ++ (Encoded.stream es ++ rest)) fault := by
      rw [← List.append_assoc]; exact hr
    obtain ⟨b, r', h3, h4, h5⟩ := C23_lossless e.encodes buffer hr'
    have hc : b.channels = 2 := h5.count.trans (h2 e List.mem_cons_self)
    rw [List.length_cons, decodeFrames, h3, Dec.bind_liftM_of (show expectBlock _ = .ok b from rfl),
      Dec.bind_ok _ (writeStereo_append h3 hc (encoded_samples (post_block buffer _ _ _ h3 b rfl) h5) w),
      ih (fun e he => h2 e (List.mem_cons_of_mem _ he)) _ _ _ h4, Wav.append_append, ← List.map_append]
    rfl

theorem getStreaminfo_fine : ∀ (blocks : List (U8 × List U8)), (∀ b ∈ blocks, b.2.length < 2 ^ 63) →
    Fine (getStreaminfo blocks)
  | [], _ => .inl ⟨none, rfl⟩
  | (ty, data) :: blocks, hl => by
    have hr : Returns (readMetadataBlock ty (data.length % 2 ^ 32) (cursorOf data) : Except Fail _ × Cursor).1 := by
      rw [cursorOf, CursorRel.result ((simAllCursor data).full.readMetadataBlock ty _
        (Nat.mod_lt _ (by decide))) (CursorRel.new (hl (ty, data) List.mem_cons_self))]
      exact flat_returns (btriple_body ty _) _
    rw [getStreaminfo]
    rcases fine_expect hr with ⟨a, h⟩ | h
    · rw [h]
      have ih := getStreaminfo_fine blocks fun b hb => hl b (List.mem_cons_of_mem _ hb)
      cases a with
      | streamInfo i => exact .inl ⟨_, rfl⟩
      | _ => exact ih
    · rw [h]
      exact .inr rfl

theorem decodeFrames_fine : ∀ (n : Nat) {r : BufferedReader} {bytes : List U8} {fault : Option Nat} (buffer : VecI32)
    (w : Option (Wav I32)), r.Remaining bytes fault →
    Fine (decodeFrames n buffer r w).1 ∨
      (decodeFrames n buffer r w).1 = .error (.panic .overflow) ∧ LongZeros (bytesToBits bytes)
  | 0, _, _, _, _, _, _ => .inl (.inl ⟨(), rfl⟩)
  | n + 1, r, bytes, fault, buffer, w, hr => by
    have h1 := C27_partial buffer hr
    have h2 : IsIoError (readNextOrEof buffer r).1 = false →
        ∃ rest, rest <:+ bytes ∧ (readNextOrEof buffer r).2.Remaining rest fault := fun hio =>
      (Sim.remaining ((simBufferedRd fault).readNextOrEof buffer)
        ((simSuffix bytes fault).rd.readNextOrEof buffer) hr hio).imp fun rest h => ⟨h.1, h.2.2⟩
    rw [decodeFrames]
    rcases hx : readNextOrEof buffer r with ⟨f | _ | b, c⟩
    · rw [hx] at h1
      rcases h1 with (⟨_, h1⟩ | ⟨e, h1⟩) | ⟨h1, hz⟩ <;> cases h1
      · exact .inl (.inr rfl)
      · exact .inr ⟨rfl, hz⟩
    · exact .inl (.inr rfl)
    · rw [hx] at h2
      obtain ⟨rest, hsuf, hr'⟩ := h2 rfl
      rw [Dec.bind_liftM_of (show expectBlock _ = .ok b from rfl)]
      by_cases h2 : b.channels = 2
      · obtain ⟨xs, -, h4⟩ := writeStereo_of hx h2
        rw [Dec.bind_ok _ (h4 w)]
        rcases decodeFrames_fine n _ _ hr' with h | ⟨h, hz⟩
        · exact .inl h
        · exact .inr ⟨h, longZeros_suffix hz hsuf⟩
      · left
        right
        unfold writeStereo
        rw [C29_notStereo h2]
        rfl

theorem nextChunk_index {i : Nat} (hi : i + 1 < 2 ^ 32) : addU 32 1 (i % 2 ^ 32) = .ok (1 + i) := by
  rw [Nat.mod_eq_of_lt (by omega), addU, if_pos (by omega)]

theorem nextChunk_ok {i : Nat} (hi : i + 1 < 2 ^ 32) (table : List (Nat × Nat)) (spc : Nat) :
    ∃ next, nextChunk i table spc = .ok next := by
  cases table with
  | nil => exact ⟨_, rfl⟩
  | cons ns rest =>
    rw [nextChunk, nextChunk_index hi]
    by_cases h : ns.1 = 1 + i
    · exact ⟨_, if_pos h⟩
    · exact ⟨_, if_neg h⟩

theorem chunkLoop_fine {seek : Nat → Nat → Src} {info : StreamInfo}
    {content : Nat → Nat → List U8} (hd : ∀ i offset, ∃ fault, (seek i offset).Delivers (content i offset) fault) :
    ∀ (offsets : List Nat) (i : Nat) (table : List (Nat × Nat)) (spc : Nat) (w : Option (Wav I32)),
      i + offsets.length < 2 ^ 32 → Fine (chunkLoop seek info offsets i table spc w).1 ∨
        (chunkLoop seek info offsets i table spc w).1 = .error (.panic .overflow) ∧
          ∃ i, ∃ offset ∈ offsets, LongZeros (bytesToBits (content i offset))
  | [], _, _, _, _, _ => .inl (.inl ⟨(), rfl⟩)
  | offset :: offsets, i, table, spc, w, hlen => by
    simp only [List.length_cons] at hlen
    obtain ⟨next, hn⟩ := nextChunk_ok (i := i) (by omega) table spc
    obtain ⟨fault, h1⟩ := hd i offset
    have h := decodeFrames_fine next.2 (blockBuffer info) w (BufRel.new h1).remaining
    rw [chunkLoop, Dec.bind_liftM_of hn]
    rw [Dec.bind_def]
    rcases hx : decodeFrames next.2 (blockBuffer info) (BufferedReader.new (seek i offset)) w with ⟨f | ⟨⟩, w'⟩
    · rw [hx] at h
      rcases h with (⟨_, h⟩ | h) | ⟨h, hz⟩ <;> cases h
      · exact .inl (.inr rfl)
      · exact .inr ⟨rfl, i, offset, List.mem_cons_self, hz⟩
    · rcases chunkLoop_fine (info := info) hd offsets (i + 1) next.1 next.2 w' (by omega) with h | ⟨h, j, o, ho, hz⟩
      · exact .inl h
      · exact .inr ⟨h, j, o, List.mem_cons_of_mem _ ho, hz⟩

/-- The entry that counts, if the table is cut at the right place. -/
theorem framesInChunk_split {done table : List (Nat × Nat)} {k : Nat} (h1 : ∀ x ∈ done, x.1 ≤ k)
    (h2 : ∀ x ∈ table, k < x.1) : framesInChunk (done ++ table) k = (done.getLast?.map Prod.snd).getD 0 := by
  unfold framesInChunk
  rw [List.filter_append, List.filter_eq_self.2 (by simpa using h1),
    List.filter_eq_nil_iff.2 (by simpa using h2), List.append_nil]

theorem nextChunk_of {done table : List (Nat × Nat)} {i : Nat} (hi : i + 1 < 2 ^ 32) (h1 : ∀ x ∈ done, x.1 ≤ i)
    (h2 : ∀ x ∈ table, i < x.1) (hs : (done ++ table).Pairwise fun x y => x.1 < y.1) :
    ∃ done' table', done ++ table = done' ++ table' ∧ (∀ x ∈ done', x.1 ≤ i + 1) ∧ (∀ x ∈ table', i + 1 < x.1) ∧
      nextChunk i table ((done.getLast?.map Prod.snd).getD 0) =
        .ok (table', framesInChunk (done ++ table) (i + 1)) ∧
      framesInChunk (done ++ table) (i + 1) = (done'.getLast?.map Prod.snd).getD 0 := by
  cases table with
  | nil =>
    have h3 : ∀ x ∈ done, x.1 ≤ i + 1 := fun x hx => Nat.le_succ_of_le (h1 x hx)
    refine ⟨done, [], rfl, h3, by simp, ?_, framesInChunk_split h3 (by simp)⟩
    rw [nextChunk, framesInChunk_split h3 (by simp)]
  | cons ns rest =>
    have hns := h2 ns List.mem_cons_self
    have hrest : ∀ x ∈ rest, ns.1 < x.1 := (List.pairwise_cons.1 (List.pairwise_append.1 hs).2.1).1
    by_cases he : ns.1 = i + 1
    · have h3 : ∀ x ∈ done ++ [ns], x.1 ≤ i + 1 := by
        intro x hx
        rcases List.mem_append.1 hx with hx | hx
        · exact Nat.le_succ_of_le (h1 x hx)
        · rw [List.mem_singleton.1 hx, he]
      have h4 : ∀ x ∈ rest, i + 1 < x.1 := fun x hx => by have := hrest x hx; omega
      have e : done ++ ns :: rest = (done ++ [ns]) ++ rest := by simp
      refine ⟨done ++ [ns], rest, e, h3, h4, ?_, by rw [e]; exact framesInChunk_split h3 h4⟩
      rw [e, framesInChunk_split h3 h4, nextChunk, nextChunk_index hi]
      refine (if_pos (show ns.1 = 1 + i by omega)).trans ?_
      simp
    · have h3 : ∀ x ∈ done, x.1 ≤ i + 1 := fun x hx => Nat.le_succ_of_le (h1 x hx)
      have h4 : ∀ x ∈ ns :: rest, i + 1 < x.1 := by
        intro x hx
        rcases List.mem_cons.1 hx with rfl | hx
        · omega
        · have := hrest x hx; omega
      refine ⟨done, ns :: rest, rfl, h3, h4, ?_, framesInChunk_split h3 h4⟩
      rw [framesInChunk_split h3 h4, nextChunk, nextChunk_index hi]
      exact if_neg (show ¬ ns.1 = 1 + i by omega)

theorem samples_append (es fs : List Encoded) : Encoded.samples (es ++ fs) = Encoded.samples es ++ Encoded.samples fs :=
  List.flatMap_append

/-- The chunks from number `i` on, counted from 0. -/
theorem chunkLoop_of {seek : Nat → Nat → Src} {info : StreamInfo} {full : List (Nat × Nat)}
    (hs : full.Pairwise fun x y => x.1 < y.1) : ∀ (chunks : List (List Encoded)) (offsets : List Nat) (i : Nat)
    (done table : List (Nat × Nat)) (w : Option (Wav I32)), full = done ++ table → (∀ x ∈ done, x.1 ≤ i) →
    (∀ x ∈ table, i < x.1) → offsets.length = chunks.length → i + chunks.length < 2 ^ 32 →
    (∀ es ∈ chunks, ∀ e ∈ es, e.channels.length = 2) →
    (∀ k es offset, chunks[k]? = some es → offsets[k]? = some offset → es.length = framesInChunk full (i + k + 1) ∧
      ∃ rest fault, (seek (i + k) offset).Delivers (Encoded.stream es ++ rest) fault) →
    chunkLoop seek info offsets i table ((done.getLast?.map Prod.snd).getD 0) w =
      (.ok (), w.map (·.append ((Encoded.samples chunks.flatten).map (BitVec.ofInt 32)))) := by
  intro chunks
  induction chunks with
  | nil =>
    intro offsets i done table w _ _ _ hlen _ _ _
    obtain rfl : offsets = [] := List.eq_nil_of_length_eq_zero hlen
    rw [chunkLoop]
    exact congrArg _ (Wav.append_nil w).symm
  | cons es chunks ih =>
    intro offsets i done table w hfull h1 h2 hlen hlt hst hk
    obtain ⟨offset, offsets, rfl⟩ : ∃ o os, offsets = o :: os := by
      cases offsets with
      | nil => simp at hlen
      | cons o os => exact ⟨o, os, rfl⟩
    simp only [List.length_cons] at hlt hlen
    subst hfull
    obtain ⟨done', table', h3, h4, h5, h6, h7⟩ := nextChunk_of (i := i) (by omega) h1 h2 hs
    obtain ⟨hn, rest, fault, hd⟩ := hk 0 es offset rfl rfl
    simp only [Nat.add_zero] at hn hd
    have hf := decodeFrames_of es (hst es List.mem_cons_self) _ (blockBuffer info) w (BufRel.new hd).remaining
    rw [hn] at hf
    rw [chunkLoop, Dec.bind_liftM_of h6]
    simp only
    rw [Dec.bind_ok _ hf, h7, ih offsets (i + 1) done' table' _ h3 h4 h5 (by omega) (by omega)
      (fun es he => hst es (List.mem_cons_of_mem _ he)) ?_, Wav.append_append, ← List.map_append, ← samples_append]
    · rfl
    · intro k es' offset' hc ho
      have := hk (k + 1) es' offset' hc ho
      rw [show i + 1 + k = i + (k + 1) by omega]
      exact this

end Examples

end Claxon
