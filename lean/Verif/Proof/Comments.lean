import Verif.Model.Metadata

/-! The loop over the Vorbis comments, without the checks of its subtractions, which never fail. -/

namespace Claxon

open ReadBytes

theorem commentsLoop_eq {σ : Type} [ReadBytes σ] [Build] (bytesLeft commentsLen : Nat)
    (comments : List (Str × Nat)) :
    (commentsLoop bytesLeft commentsLen comments : Dec σ _) =
      if _h : bytesLeft ≥ 4 ∧ comments.length < commentsLen then do
        let commentLen ← readLeU32
        if commentLen.toNat > bytesLeft - 4 then
          fmtErr "Vorbis comment too long for Vorbis comment block"
        else if commentLen.toNat = 0 then commentsLoop (bytesLeft - 4) (commentsLen - 1) comments
        else do
          onAlloc commentLen.toNat 1
          let commentBytes ← readInto commentLen.toNat
          let comment ← checkComment commentBytes
          commentsLoop (bytesLeft - 4 - commentLen.toNat) commentsLen (comments ++ [comment])
      else pure (bytesLeft, commentsLen, comments) := by
  rw [commentsLoop.eq_1]
  split
  · rename_i h
    congr 1; funext len
    have h4 : subU 32 bytesLeft 4 = .ok (bytesLeft - 4) := if_pos h.1
    split
    · rename_i h'; rw [h4] at h'; cases h'
    · rename_i l h'
      rw [h4] at h'; cases h'
      split
      · rfl
      · split
        · rw [show subU 32 commentsLen 1 = .ok (commentsLen - 1) from if_pos (by omega)]; rfl
        · congr 1; funext _; congr 1; funext _
          have h5 : subU 32 (bytesLeft - 4) len.toNat = .ok (bytesLeft - 4 - len.toNat) := if_pos (by omega)
          split
          · rename_i h'; rw [h5] at h'; cases h'
          · rename_i h'; rw [h5] at h'; cases h'; rfl
  · rfl

end Claxon
