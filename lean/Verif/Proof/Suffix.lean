import Verif.Proof.FrameApi

/-! # Whatever is done with a reader, the bytes left are a suffix of the bytes that were there -/

namespace Claxon

open Spec ReadBytes

/-- A suffix of the bytes is left. -/
def SuffixRel (whole : List U8) (fault : Option Nat) (s t : Flat) : Prop :=
  s = t ∧ s.bytes <:+ whole ∧ s.fault = fault

theorem simSuffix (whole : List U8) (fault : Option Nat) :
    SimAll (SuffixRel whole fault) (fun _ => False) where
  io := fun _ h => h.elim
  rd :=
    { readU8 := by
        rintro ⟨bs, f⟩ t ⟨rfl, h1, h2⟩
        left
        cases bs with
        | nil => exact ⟨rfl, rfl, h1, h2⟩
        | cons b bs => exact ⟨rfl, rfl, (List.suffix_cons b bs).trans h1, h2⟩
      readU8OrEof := by
        rintro ⟨bs, f⟩ t ⟨rfl, h1, h2⟩
        left
        refine ⟨rfl, rfl, ?_⟩
        show (Flat.readU8OrEof _).2.bytes <:+ _ ∧ _
        cases bs with
        | nil => cases f <;> exact ⟨h1, h2⟩
        | cons b bs => exact ⟨(List.suffix_cons b bs).trans h1, h2⟩ }
  full :=
    { readU8 := by
        rintro ⟨bs, f⟩ t ⟨rfl, h1, h2⟩
        left
        cases bs with
        | nil => exact ⟨rfl, rfl, h1, h2⟩
        | cons b bs => exact ⟨rfl, rfl, (List.suffix_cons b bs).trans h1, h2⟩
      readInto := by
        rintro n - ⟨bs, f⟩ t ⟨rfl, h1, h2⟩
        left
        refine ⟨rfl, rfl, ?_⟩
        show (Flat.readInto n _).2.bytes <:+ _ ∧ (Flat.readInto n _).2.fault = _
        unfold Flat.readInto
        by_cases hn : n ≤ bs.length
        · rw [if_pos hn]
          exact ⟨(List.drop_suffix n bs).trans h1, h2⟩
        · rw [if_neg hn]
          exact ⟨List.nil_suffix, h2⟩
      skip := by
        rintro n - ⟨bs, f⟩ t ⟨rfl, h1, h2⟩
        left
        refine ⟨rfl, rfl, ?_⟩
        show (Flat.skip n _).2.bytes <:+ _ ∧ (Flat.skip n _).2.fault = _
        unfold Flat.skip
        by_cases hn : n ≤ bs.length
        · rw [if_pos hn]
          exact ⟨(List.drop_suffix n bs).trans h1, h2⟩
        · rw [if_neg hn]
          exact ⟨List.nil_suffix, h2⟩
      onAlloc := fun _ _ => Sim.pure () }

theorem Sim.suffix {α : Type} {bytes : List U8} {fault : Option Nat} {m : Dec Flat α}
    (h : Sim (SuffixRel bytes fault) (fun _ => False) True m m) :
    (m ⟨bytes, fault⟩).2.bytes <:+ bytes ∧ (m ⟨bytes, fault⟩).2.fault = fault := by
  rcases h ⟨bytes, fault⟩ _ ⟨rfl, List.suffix_rfl, rfl⟩ with ⟨-, -, h⟩ | ⟨f, -, h, -⟩
  · exact h
  · exact h.elim

/-- Unless it fails with an I/O error, whatever is done with a buffered reader leaves a suffix of the bytes
to come. -/
theorem Sim.remaining [FuzzCfg] {α : Type} {bytes : List U8} {fault : Option Nat} {m : Dec BufferedReader α}
    {m' : Dec Flat α} (hm : Sim (BufRel fault) (FaultOf fault) True m m')
    (hs : Sim (SuffixRel bytes fault) (fun _ => False) True m' m') {r : BufferedReader}
    (hr : r.Remaining bytes fault) (hio : IsIoError (m r).1 = false) :
    ∃ rest, rest <:+ bytes ∧ m' ⟨bytes, fault⟩ = ((m r).1, ⟨rest, fault⟩) ∧
      (m r).2.Remaining rest fault := by
  rcases hm r _ hr.rel with ⟨h1, h2⟩ | ⟨f, h1, ⟨code, -, rfl⟩, -⟩
  · obtain ⟨h3, h4⟩ := hs.suffix
    generalize m' ⟨bytes, fault⟩ = y at *
    rcases y with ⟨y1, y2, y3⟩
    simp only at h1 h2 h3 h4
    subst h4
    rw [h1]
    exact ⟨_, h3, rfl, h2.remaining⟩
  · rw [h1] at hio
    exact absurd hio (by simp [IsIoError])

end Claxon
