import Verif.Proof.Alloc
import Verif.Proof.MetadataApi

/-! Memory requests while opening a stream. -/

namespace Claxon

open Spec ReadBytes

variable {σ α β : Type} [ReadBytes σ]

/-- Every request satisfies `Q`. -/
def AllocsEach (Q : Request → Prop) (m : Dec (Logged σ) α) : Prop := Allocs m (fun l => ∀ q ∈ l, Q q)

variable {Q : Request → Prop}

omit [ReadBytes σ] in
theorem AllocsEach.bind {m : Dec (Logged σ) α} {f : α → Dec (Logged σ) β} (hm : AllocsEach Q m)
    (hf : ∀ a, AllocsEach Q (f a)) : AllocsEach Q (m >>= f) := by
  intro s
  obtain ⟨new, h1, h2⟩ := hm s
  rw [Dec.bind_def]
  generalize m s = x at h1 ⊢
  rcases x with ⟨e | a, s'⟩
  · exact ⟨new, h1, h2⟩
  · obtain ⟨new', h3, h4⟩ := hf a s'
    refine ⟨new ++ new', ?_, ?_⟩
    · simp only at h1 ⊢
      rw [h3, h1, List.append_assoc]
    · intro q hq
      rcases List.mem_append.1 hq with hq | hq
      · exact h2 q hq
      · exact h4 q hq

omit [ReadBytes σ] in
theorem AllocsEach.of_silent {m : Dec (Logged σ) α} (h : Silent m) : AllocsEach Q m :=
  Allocs.of_silent h (by simp)

/-- What can be requested while reading a metadata block. -/
def SmallRequest (q : Request) : Prop :=
  (q.size = 1 ∧ q.count ≤ maxBlockLength) ∨ (q.size = 32 ∧ q.count < maxBlockLength / 4)

theorem le_requestedBytes {l : List Request} {q : Request} (hq : q ∈ l) (h1 : q.size = 1) :
    q.count ≤ requestedBytes l := by
  unfold requestedBytes
  induction l with
  | nil => simp at hq
  | cons p l ih =>
    rw [List.map_cons, List.sum_cons]
    rcases List.mem_cons.1 hq with rfl | hq
    · rw [if_pos h1]; omega
    · have := ih hq; omega

theorem RequestsOk.small {length : Nat} {l : List Request} (h : RequestsOk length l) :
    ∀ q ∈ l, SmallRequest q := by
  intro q hq
  rcases h.limit with hl | rfl
  · rcases h.other q hq with h1 | ⟨h1, h2⟩
    · exact .inl ⟨h1, (le_requestedBytes hq h1).trans (h.total.trans hl)⟩
    · exact .inr ⟨h1, lt_of_lt_of_le h2 (Nat.div_le_div_right hl)⟩
  · simp at hq

theorem allocsEach_block : AllocsEach SmallRequest (readBlock : Dec (Logged σ) _) := by
  unfold readBlock readMetadataBlockHeader
  refine AllocsEach.bind (.of_silent ?_) fun header => AllocsEach.bind ?_ fun _ => .of_silent (.pure _)
  · exact silent_readU8.bind fun _ => silent_readBeU24.bind fun _ => .pure _
  · exact (allocs_body _ _).mono fun _ h => h.small

theorem allocsEach_openLoop (fuel : Nat) : ∀ (o : FlacReaderOptions) (vc : Option VorbisComment)
    (done : Bool), AllocsEach SmallRequest (openLoop fuel o vc done : Dec (Logged σ) _) := by
  induction fuel with
  | zero => exact fun _ _ _ => .of_silent (.fail _)
  | succ fuel ih =>
    intro o vc done
    rw [openLoop_succ]
    refine Allocs.ite (fun _ => AllocsEach.of_silent (.pure _)) fun _ => AllocsEach.bind allocsEach_block ?_
    rintro ⟨l, b⟩
    rcases b with i | n | ⟨id, data⟩ | sp | c | _ | _ | _ <;> simp only [afterBlockRead]
    · exact .of_silent (.fail _)
    · exact Allocs.ite (fun _ => AllocsEach.of_silent (.pure _)) fun _ => ih _ _ _
    · exact Allocs.ite (fun _ => AllocsEach.of_silent (.pure _)) fun _ => ih _ _ _
    · exact Allocs.ite (fun _ => AllocsEach.of_silent (.pure _)) fun _ => ih _ _ _
    · exact Allocs.ite (fun _ => AllocsEach.of_silent (.fail _)) fun _ =>
        Allocs.ite (fun _ => AllocsEach.of_silent (.pure _)) fun _ => ih _ _ _
    all_goals exact Allocs.ite (fun _ => AllocsEach.of_silent (.pure _)) fun _ => ih _ _ _

theorem allocsEach_open (fuel : Nat) (o : FlacReaderOptions) :
    AllocsEach SmallRequest (openStream fuel o : Dec (Logged σ) _) := by
  rw [openStream_eq, openFlat_eq]
  refine AllocsEach.bind (.of_silent ?_) fun _ => AllocsEach.bind allocsEach_block ?_
  · unfold readStreamHeader
    exact silent_readBeU32.bind fun _ => .ite (.ite (.fail _) (.fail _)) (.pure _)
  · rintro ⟨l, b⟩
    rcases b with i | n | ⟨id, data⟩ | sp | c | _ | _ | _ <;> simp only
    · exact AllocsEach.bind (allocsEach_openLoop _ _ _ _) fun _ => .of_silent (.pure _)
    all_goals exact .of_silent (.fail _)

end Claxon
