import Verif.Proof.Containers
import Verif.Props.ExamplesFile

/-! # C71: the example programs `decode_ogg` and `decode_mp4` -/

namespace Claxon.Props

open Claxon Spec ReadBytes Examples

variable {info : StreamInfo}

/-- **C71.** decode_ogg writes the samples of all frames, in order, with the format of the streaminfo, if the frames
have two channels. The packets may contain anything after the blocks of metadata, and frame packets may be empty. -/
theorem C71_ogg {magic signature rest : List U8} {first : EncodedBlock} {more : List (EncodedBlock × List U8)}
    {packets : List (List U8)} {es : List Encoded} (hm : magic.length = 7) (hs : signature.length = 4)
    (hi : first.block = .streamInfo info) (hn : more.length < 2 ^ 16) (hp : OggFrames packets es)
    (h2 : ∀ e ∈ es, e.channels.length = 2) {file : List Packet}
    (hfile : file = (oggFirst magic more.length signature first ++ rest) ::
      (more.map (fun p => p.1.bytes ++ p.2) ++ packets)) (hl : ∀ p ∈ file, p.length < 2 ^ 63)
    (w : Option (Wav I32)) :
    ∃ samples : List I32, decodeOgg file w =
        (.ok (), some ⟨info.channels, info.sampleRate, info.bitsPerSample, samples⟩) ∧
      samples.map BitVec.toInt = Encoded.samples es := by
  subst hfile
  refine ⟨_, ?_, samples_toInt es⟩
  have h1 := readFirstPacket_of hm hs hn hi (hl _ List.mem_cons_self)
  have h3 := skipHeaders_of (packets := packets) more fun p hp =>
    hl _ (List.mem_cons_of_mem _ (List.mem_append_left _ (List.mem_map.2 ⟨p, hp, rfl⟩)))
  have h4 := framePackets_of hp (fun p hp => hl p (List.mem_cons_of_mem _ (List.mem_append_right _ hp))) h2
  rw [decodeOgg, Dec.bind_liftM_of h1]
  simp only
  rw [Dec.bind_liftM_of h3, Dec.bind_set_run, h4, create_legal (BodyEncodes.info_legal first.encodes hi)]
  simp [Wav.append]

/-- The hypotheses are met by a file with two further metadata packets and an empty packet between two frames. -/
example : (List.replicate 7 1#8).length = 7 ∧ streamMarker.length = 4 ∧
    (infoBlock false).block = .streamInfo exampleInfo ∧
    OggFrames [exampleFrame.bytes 16, [], exampleFrame.bytes 16] [exampleEncoded, exampleEncoded] ∧
    (∀ e ∈ [exampleEncoded, exampleEncoded], e.channels.length = 2) :=
  ⟨by decide, by decide, rfl, .frame exampleEncoded (.empty (.frame exampleEncoded .nil)), by decide⟩

example : (decodeOgg [oggFirst (List.replicate 7 1#8) 2 streamMarker (infoBlock false), (paddingBlock false).bytes,
      (commentBlock true).bytes, exampleFrame.bytes 16, [], exampleFrame.bytes 16] none).2.map Wav.samples =
    some [5, 3, 7, 4, 6, 8, 6, 2, 5, 3, 7, 4, 6, 8, 6, 2] := by
  decide +kernel

/-- **C71.** Whatever the packets contain, decode_ogg succeeds or panics deliberately, but for the overflow of C27, for
which there must be a long run of zeros in one of them. -/
theorem C71_oggEnds {file : List Packet} (hl : ∀ p ∈ file, p.length < 2 ^ 63)
    (w : Option (Wav I32)) : (decodeOgg file w).1 = .ok () ∨ (decodeOgg file w).1 = .error (.panic .explicit) ∨
      (decodeOgg file w).1 = .error (.panic .overflow) ∧ ∃ p ∈ file, LongZeros (bytesToBits p) := by
  cases file with
  | nil => exact .inr (.inl rfl)
  | cons first packets =>
    have hp : ∀ p ∈ packets, p.length < 2 ^ 63 := fun p h => hl p (List.mem_cons_of_mem _ h)
    rw [decodeOgg]
    rcases readFirstPacket_fine (hl first List.mem_cons_self) with ⟨⟨info, n⟩, h⟩ | h
    · rw [Dec.bind_liftM_of h]
      simp only
      rcases skipHeaders_fine n packets hp with h1 | ⟨left, h1, h2⟩
      · rw [h1]
        exact .inr (.inl rfl)
      · rw [Dec.bind_liftM_of h1, Dec.bind_set_run]
        rcases framePackets_fine left (blockBuffer info) (some (Wav.create info))
          fun p h => hp p (h2.subset h) with (⟨⟨⟩, h⟩ | h) | ⟨h, p, h3, hz⟩
        · exact .inl h
        · exact .inr (.inl h)
        · exact .inr (.inr ⟨h, p, List.mem_cons_of_mem _ (h2.subset h3), hz⟩)
    · rw [h]
      exact .inr (.inl rfl)

/-- **C71.** decode_mp4 writes the samples of all frames of all chunks, in order, with the format of the streaminfo, if
the frames have two channels, and the chunks have as many frames as the sample-to-chunk table says. The chunks may be
anywhere in the file, with anything after them. -/
theorem C71_mp4 {seek : Nat → Nat → Src} {track : Track} {before : List EncodedBlock} {streaminfo : EncodedBlock}
    {after : List (U8 × List U8)} {chunks : List (List Encoded)}
    (hblocks : track.blocks = before.map (fun b => (b.blockType, b.body)) ++
      (streaminfo.blockType, streaminfo.body) :: after)
    (hi : streaminfo.block = .streamInfo info) (hbefore : ∀ b ∈ before, ¬ IsStreaminfo b)
    (htable : track.chunkSamples.Pairwise fun x y => x.1 < y.1) (hpos : ∀ x ∈ track.chunkSamples, 1 ≤ x.1)
    (hlen : track.chunkOffsets.length = chunks.length) (hlt : chunks.length < 2 ^ 32)
    (h2 : ∀ es ∈ chunks, ∀ e ∈ es, e.channels.length = 2)
    (hchunk : ∀ k es offset, chunks[k]? = some es → track.chunkOffsets[k]? = some offset →
      es.length = framesInChunk track.chunkSamples (k + 1) ∧
      ∃ rest fault, (seek k offset).Delivers (Encoded.stream es ++ rest) fault) (w : Option (Wav I32)) :
    ∃ samples : List I32, decodeMp4 seek track w =
        (.ok (), some ⟨info.channels, info.sampleRate, info.bitsPerSample, samples⟩) ∧
      samples.map BitVec.toInt = Encoded.samples chunks.flatten := by
  refine ⟨_, ?_, samples_toInt chunks.flatten⟩
  have hl := streaminfo.lengthLt
  have h1 : getStreaminfo track.blocks = .ok (some info) := by
    rw [hblocks]
    exact getStreaminfo_of (hi ▸ streaminfo.encodes) (by omega) before hbefore
  have h3 := chunkLoop_of (seek := seek) (info := info) htable chunks track.chunkOffsets 0 [] track.chunkSamples
    (some (Wav.create info)) rfl (by simp) (fun x hx => hpos x hx) hlen (by omega) h2 (by simpa using hchunk)
  rw [decodeMp4, Dec.bind_liftM_of (show expect (getStreaminfo track.blocks) = .ok (some info) by rw [h1]; rfl)]
  simp only
  rw [Dec.bind_set_run]
  rw [show ((([] : List (Nat × Nat)).getLast?.map Prod.snd).getD 0) = 0 from rfl] at h3
  rw [h3, create_legal (BodyEncodes.info_legal streaminfo.encodes hi)]
  simp [Wav.append]

/-- An MP4 file with three chunks of two, two and one frames. -/
def exampleTrack : Track where
  blocks := [((paddingBlock false).blockType, (paddingBlock false).body), ((infoBlock true).blockType, (infoBlock true).body)]
  chunkOffsets := [1000, 2000, 3000]
  chunkSamples := [(1, 2), (3, 1)]

example : exampleTrack.chunkSamples.Pairwise (fun x y => x.1 < y.1) ∧ (∀ x ∈ exampleTrack.chunkSamples, 1 ≤ x.1) ∧
    exampleTrack.chunkOffsets.length =
      [[exampleEncoded, exampleEncoded], [exampleEncoded, exampleEncoded], [exampleEncoded]].length ∧
    ((List.range 3).map fun k => framesInChunk exampleTrack.chunkSamples (k + 1)) = [2, 2, 1] ∧
    ∃ info, (infoBlock true).block = .streamInfo info ∧ ¬ IsStreaminfo (paddingBlock false) := by
  refine ⟨by decide, by decide, by decide, by decide, _, rfl, ?_⟩
  rintro ⟨_, h⟩
  cases h

example : (decodeMp4 (fun k _ => bytewise (Encoded.stream (if k < 2 then [exampleEncoded, exampleEncoded] else
      [exampleEncoded]) ++ [1#8, 2#8])) exampleTrack none).2.map Wav.samples =
    some (List.replicate 5 [5, 3, 7, 4, 6, 8, 6, 2]).flatten := by
  decide +kernel

/-- **C71.** Whatever the file contains, decode_mp4 succeeds or panics deliberately, but for the overflow of C27, for
which there must be a long run of zeros after the beginning of a chunk. There are fewer than `2 ^ 32` chunks: the file
says how many there are with 32 bits. -/
theorem C71_mp4Ends {seek : Nat → Nat → Src} {track : Track} (hl : ∀ b ∈ track.blocks, b.2.length < 2 ^ 63)
    (hlen : track.chunkOffsets.length < 2 ^ 32)
    {content : Nat → Nat → List U8} (hd : ∀ i offset, ∃ fault, (seek i offset).Delivers (content i offset) fault)
    (w : Option (Wav I32)) :
    (decodeMp4 seek track w).1 = .ok () ∨ (decodeMp4 seek track w).1 = .error (.panic .explicit) ∨
      (decodeMp4 seek track w).1 = .error (.panic .overflow) ∧
        ∃ i, ∃ offset ∈ track.chunkOffsets, LongZeros (bytesToBits (content i offset)) := by
  rw [decodeMp4]
  rcases getStreaminfo_fine track.blocks hl with ⟨_ | info, h⟩ | h
  · rw [h]
    exact .inr (.inl rfl)
  · rw [h, Dec.bind_liftM_of (show expect (.ok (some info)) = .ok (some info) from rfl)]
    simp only
    rw [Dec.bind_set_run]
    rcases chunkLoop_fine (info := info) hd track.chunkOffsets 0 track.chunkSamples 0 (some (Wav.create info))
        (by omega) with
      (⟨⟨⟩, h⟩ | h) | h
    · exact .inl h
    · exact .inr (.inl h)
    · exact .inr (.inr h)
  · rw [h]
    exact .inr (.inl rfl)

/-- The hypotheses are met by the track above in a file where nothing follows the offsets. -/
example : (∀ b ∈ exampleTrack.blocks, b.2.length < 2 ^ 63) ∧ exampleTrack.chunkOffsets.length < 2 ^ 32 ∧
    ∀ i offset : Nat, ∃ fault, ((fun _ _ => bytewise []) i offset : Src).Delivers [] fault :=
  ⟨by decide +kernel, by decide, fun _ _ => ⟨none, bytewise_delivers _⟩⟩

end Claxon.Props
