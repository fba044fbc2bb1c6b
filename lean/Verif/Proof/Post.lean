import Verif.Proof.FrameSplit

/-! # Facts about successful results, for every reader -/

namespace Claxon

open ReadBytes

variable {σ α β : Type}

/-- Whenever `m` succeeds, its result satisfies `Q`. -/
def Post (m : Dec σ α) (Q : α → Prop) : Prop := ∀ s a s', m s = (.ok a, s') → Q a

namespace Post

theorem pure {a : α} {Q : α → Prop} (h : Q a) : Post (Pure.pure a : Dec σ α) Q := by
  intro s b s' hb
  cases hb
  exact h

theorem fail {e : Fail} {Q : α → Prop} : Post (Dec.fail e : Dec σ α) Q := by
  intro s b s' hb
  cases hb

theorem bind {m : Dec σ α} {f : α → Dec σ β} {P : α → Prop} {Q : β → Prop} (hm : Post m P)
    (hf : ∀ a, P a → Post (f a) Q) : Post (m >>= f) Q := by
  intro s b s' h
  rw [Dec.bind_def] at h
  rcases hms : m s with ⟨e | a, s1⟩
  · rw [hms] at h; cases h
  · rw [hms] at h
    exact hf a (hm _ _ _ hms) _ _ _ h

theorem any {m : Dec σ α} {f : α → Dec σ β} {Q : β → Prop} (hf : ∀ a, Post (f a) Q) :
    Post (m >>= f) Q := bind (P := fun _ => True) (fun _ _ _ _ => trivial) (fun a _ => hf a)

theorem lift {r : Res α} {Q : α → Prop} (h : ∀ a, r = .ok a → Q a) : Post (liftM r : Dec σ α) Q := by
  intro s b s' hb
  cases r with
  | error e => cases hb
  | ok a => cases hb; exact h _ rfl

theorem ite {c : Prop} [Decidable c] {m₁ m₂ : Dec σ α} {Q : α → Prop} (h₁ : c → Post m₁ Q)
    (h₂ : ¬ c → Post m₂ Q) : Post (if c then m₁ else m₂) Q := by
  split
  · exact h₁ ‹_›
  · exact h₂ ‹_›

theorem mono {m : Dec σ α} {P Q : α → Prop} (h : Post m P) (hpq : ∀ a, P a → Q a) : Post m Q :=
  fun s a s' hm => hpq a (h s a s' hm)

end Post

theorem addU_lt {w a b c : Nat} (h : addU w a b = .ok c) : c < 2 ^ w ∧ c = a + b := by
  unfold addU at h
  split at h
  · cases h; exact ⟨‹_›, rfl⟩
  · cases h

theorem mulU_lt {w a b c : Nat} (h : mulU w a b = .ok c) : c < 2 ^ w ∧ c = a * b := by
  unfold mulU at h
  split at h
  · cases h; exact ⟨‹_›, rfl⟩
  · cases h

section

variable [ReadBytes σ]

/-- The block sizes that a code can stand for. -/
def BlockSizeCode.Ok : BlockSizeCode → Prop
  | .known bs => 1 ≤ bs ∧ bs < 2 ^ 16
  | _ => True

omit [ReadBytes σ] in
theorem post_blockSizeCode (n : Nat) : Post (blockSizeCode n : Dec σ _) BlockSizeCode.Ok := by
  unfold blockSizeCode
  refine Post.ite (fun _ => Post.fail) (fun _ => ?_)
  refine Post.ite (fun _ => Post.pure (by simp [BlockSizeCode.Ok])) (fun _ => ?_)
  refine Post.ite (fun _ => ?_) (fun _ => ?_)
  · refine Post.bind (Post.lift (fun a ha => mulU_lt ha)) (fun bs hbs => Post.pure ?_)
    refine ⟨?_, hbs.1⟩
    rw [hbs.2, Nat.shiftLeft_eq]
    have := Nat.two_pow_pos (n - 2)
    omega
  refine Post.ite (fun _ => Post.pure trivial) (fun _ => ?_)
  refine Post.ite (fun _ => Post.pure trivial) (fun _ => ?_)
  refine Post.bind (Post.lift (fun a ha => mulU_lt ha)) (fun bs hbs => Post.pure ?_)
  refine ⟨?_, hbs.1⟩
  rw [hbs.2, Nat.shiftLeft_eq]
  have := Nat.two_pow_pos (n - 8)
  omega

theorem post_readBlockSize {c : BlockSizeCode} (h : c.Ok) :
    Post (readBlockSize c : Dec σ _) (fun bs => 1 ≤ bs ∧ bs < 2 ^ 16) := by
  unfold readBlockSize
  cases c with
  | known bs => exact Post.pure h
  | read8 =>
    refine Post.any (fun b => ?_)
    exact Post.lift (fun a ha => by have := addU_lt ha; omega)
  | read16 =>
    refine Post.any (fun b => ?_)
    refine Post.ite (fun _ => Post.fail) (fun _ => ?_)
    exact Post.lift (fun a ha => by have := addU_lt ha; omega)

omit [ReadBytes σ] in
theorem post_channelAssignmentCode (n : Nat) : Post (channelAssignmentCode n : Dec σ _) (fun ca =>
    ∀ k, ca = .independent k → 1 ≤ k ∧ k ≤ 8) := by
  unfold channelAssignmentCode
  refine Post.ite (fun hn => ?_) (fun _ => ?_)
  · refine Post.bind (Post.lift (fun a ha => addU_lt ha)) (fun ch hch => Post.pure ?_)
    intro k hk
    cases hk
    omega
  refine Post.ite (fun _ => Post.pure (by intro k hk; cases hk)) (fun _ => ?_)
  refine Post.ite (fun _ => Post.pure (by intro k hk; cases hk)) (fun _ => ?_)
  refine Post.ite (fun _ => Post.pure (by intro k hk; cases hk)) (fun _ => Post.fail)

omit [ReadBytes σ] in
theorem post_bitsPerSampleCode (n : Nat) : Post (bitsPerSampleCode n : Dec σ _) (fun o =>
    ∀ k, o = some k → 8 ≤ k ∧ k ≤ 24) := by
  unfold bitsPerSampleCode
  split <;> first | exact Post.fail | exact Post.pure (by simp)

/-- What holds of every frame header that is returned. -/
structure FrameHeader.Bounded (h : FrameHeader) : Prop where
  blockSize : 1 ≤ h.blockSize ∧ h.blockSize < 2 ^ 16
  channels : 1 ≤ h.channels ∧ h.channels ≤ 8
  bitsPerSample : ∀ k, h.bitsPerSample = some k → 8 ≤ k ∧ k ≤ 24

theorem post_headerFields (sync : U16) : Post (headerFields sync : Dec σ _) FrameHeader.Bounded := by
  unfold headerFields
  refine Post.ite (fun _ => Post.fail) (fun _ => ?_)
  refine Post.ite (fun _ => Post.fail) (fun _ => ?_)
  refine Post.any (fun a => ?_)
  refine Post.bind (post_blockSizeCode _) (fun bsc hbsc => ?_)
  refine Post.any (fun sr => Post.any (fun cbr => ?_))
  refine Post.bind (post_channelAssignmentCode _) (fun ca hca => ?_)
  refine Post.bind (post_bitsPerSampleCode _) (fun bps hbps => ?_)
  refine Post.ite (fun _ => Post.fail) (fun _ => ?_)
  refine Post.any (fun t => ?_)
  refine Post.bind (post_readBlockSize hbsc) (fun bs hbs => ?_)
  refine Post.any (fun rate => Post.pure ⟨hbs, ?_, hbps⟩)
  unfold FrameHeader.channels
  cases ca with
  | independent n => exact hca n rfl
  | leftSideStereo => simp
  | rightSideStereo => simp
  | midSideStereo => simp

theorem post_header [FuzzCfg] : Post (readFrameHeaderOrEof : Dec σ _) (fun o => ∀ h, o = some h → h.Bounded) := by
  have hb : Post (readFrameHeaderBody : Dec (Crc8Reader σ) _) (fun o => ∀ h, o = some h → h.Bounded) := by
    rw [readFrameHeaderBody_eq]
    refine Post.any (fun o => ?_)
    rcases o with _ | sync
    · exact Post.pure (by simp)
    · unfold headerRest
      refine Post.bind (P := FrameHeader.Bounded) ?_ (fun h hh => Post.pure (by simpa using hh))
      refine Post.bind (post_headerFields sync) (fun h hh => Post.any (fun c => Post.any (fun p => ?_)))
      exact Post.ite (fun _ => Post.fail) (fun _ => Post.pure hh)
  intro s a s' h
  unfold readFrameHeaderOrEof withCrc8 at h
  rcases hx : readFrameHeaderBody (Crc8Reader.new s) with ⟨r, c⟩
  rw [hx] at h
  cases h
  exact hb _ _ _ hx

end

end Claxon
