import Verif.Proof.Header

/-! # A frame in a stream that is cut off, and in one that goes on -/

namespace Claxon

open Spec ReadBytes

variable {cut fault : Option Nat} {ys : List U8}

theorem consumed_ext (whole : List U8) {s t : Flat} (h : ExtRel cut ys fault s t) :
    consumed (whole ++ ys) t = consumed whole s := by
  obtain ⟨-, rfl⟩ := h
  unfold consumed
  rw [List.length_append, List.length_append, Nat.add_sub_add_right,
    List.take_append_of_le_length (Nat.sub_le _ _)]

theorem simExt_headerRest (whole : List U8) (sync : U16) :
    Sim (ExtRel cut ys fault) (IsCut cut) False (flatHeaderRest whole sync)
      (flatHeaderRest (whole ++ ys) sync) := by
  have h := (simExt cut ys fault).toSimU8
  unfold flatHeaderRest
  refine Sim.bind (h.headerFields _) (fun hd => ?_)
  apply Sim.get
  intro s t hst
  rw [consumed_ext whole hst]
  refine Sim.bind h.readU8 (fun p => ?_)
  exact Sim.ite (fun _ => Sim.fmtErr _) (fun _ => Sim.pure _)

theorem simExt_body (whole : List U8) (hd : FrameHeader) (buffer : VecI32) :
    Sim (ExtRel cut ys fault) (IsCut cut) False (flatBody whole hd buffer)
      (flatBody (whole ++ ys) hd buffer) := by
  have h := (simExt cut ys fault).toSimU8
  unfold flatBody
  simp only
  rcases hd.bitsPerSample with _ | bps
  · exact Sim.unsupportedErr _
  · simp only
    refine Sim.bind (Sim.lift _) (fun _ => ?_)
    refine Sim.bind (Sim.withBitstream (h.decodeChannels _ _ _ _)) (fun data => ?_)
    apply Sim.get
    intro s t hst
    rw [consumed_ext whole hst]
    refine Sim.bind h.readBeU16 (fun p => ?_)
    refine Sim.ite (fun _ => Sim.fmtErr _) (fun _ => ?_)
    sim (Sim.pure _)

theorem readBeU16OrEof_two (a b : U8) (bs : List U8) (f : Option Nat) :
    (readBeU16OrEof : Dec Flat _) ⟨a :: b :: bs, f⟩ =
      (.ok (some (a.setWidth 16 <<< 8 ||| b.setWidth 16)), ⟨bs, f⟩) := rfl

/-- If at least two bytes are there, reading a frame goes as in any longer stream, unless it fails because
the stream is cut off. -/
theorem frame_ext (pre : List U8) (h2 : 2 ≤ pre.length) (buffer : VecI32) :
    SimAt (ExtRel cut ys fault) (IsCut cut) False (readNextOrEof buffer ⟨pre, cut⟩)
      (readNextOrEof buffer ⟨pre ++ ys, fault⟩) := by
  rcases pre with _ | ⟨a, _ | ⟨b, bs⟩⟩
  · simp at h2
  · simp at h2
  · rw [readNextOrEof_flat, readNextOrEof_flat]
    unfold flatHeader
    simp only [bind_assoc]
    rw [Dec.bind_ok _ (readBeU16OrEof_two a b bs cut)]
    rw [show (⟨a :: b :: bs ++ ys, fault⟩ : Flat) = ⟨a :: b :: (bs ++ ys), fault⟩ from rfl,
      Dec.bind_ok _ (readBeU16OrEof_two a b (bs ++ ys) fault)]
    simp only [bind_assoc, pure_bind]
    refine Sim.bind (simExt_headerRest (a :: b :: bs) _) (fun hd => ?_) _ _ ⟨rfl, rfl⟩
    exact simExt_body (a :: b :: bs) hd buffer

end Claxon
