import Verif.Proof.UncheckedApi
import Verif.Proof.Overflow
import Verif.Props.Width

/-! # C70: builds without overflow checks do not panic

`uncheckedBuild` is a build without overflow checks and debug assertions (by default, a release build). -/

namespace Claxon.Props

open Claxon Spec ReadBytes

variable {r : BufferedReader} {bytes : List U8} {fault : Option Nat} {σ : Type}

/-- Whatever does not panic with a reader compiled with overflow checks does not panic with one compiled
without. -/
theorem neverPanicsAll_ref {P : σ → Prop} {I I' : ReadBytes σ} (h : RefRd I I') (hP : @NeverPanicsAll σ I P) :
    @NeverPanicsAll σ I' P := by
  have tr : ∀ {α : Type} {m m' : Dec σ α}, Ref m m' → ∀ s, (Returns (m s).1 ∧ P (m s).2) →
      (Returns (m' s).1 ∧ P (m' s).2) := by
    intro α m m' hm s hs
    rw [hm.eq_of (noPanic_of_returns hs.1)]
    exact hs
  have hN := @NeverPanicsAll.toNeverPanics σ I P hP
  refine @NeverPanicsAll.mk σ I' P (@NeverPanics.mk σ I' P ?_ ?_) ?_ ?_ ?_
  · exact fun s hs => tr h.readU8 s (@NeverPanics.readU8 σ I P hN s hs)
  · exact fun s hs => tr h.readU8OrEof s (@NeverPanics.readU8OrEof σ I P hN s hs)
  · exact fun n hn s hs => tr (h.readInto n) s (@NeverPanicsAll.readInto σ I P hP n hn s hs)
  · exact fun n hn s hs => tr (h.skip n) s (@NeverPanicsAll.skip σ I P hP n hn s hs)
  · exact fun n m s hs => tr (h.onAlloc n m) s (@NeverPanicsAll.onAlloc σ I P hP n m s hs)

/-- **C70.** Without overflow checks, reading a frame does not panic, however long the runs of zeros are. -/
theorem C70_frame (hr : r.Remaining bytes fault) (hlen : bytes.length < 2 ^ 64) (buffer : VecI32) :
    Returns (@readNextOrEof _ (@BufferedReader.instReadBytesOfBuild uncheckedBuild) _ uncheckedBuild buffer r).1 := by
  have h := @wp_frame _ uncheckedBuild rfl (@BufferedReader.instReadBytesOfBuild uncheckedBuild) _ _
    (steady_finite fault) buffer _ ⟨_, hr, hlen⟩
  rcases hx : @readNextOrEof _ (@BufferedReader.instReadBytesOfBuild uncheckedBuild) _ uncheckedBuild buffer r with
    ⟨f | o, r'⟩ <;> rw [hx] at h
  · obtain ⟨e, rfl, -⟩ := h
    exact .inr ⟨e, rfl⟩
  · exact .inl ⟨_, rfl⟩

/-- **C70.** Without overflow checks, reading frames does not panic, however long the runs of zeros are: every call
returns a block, the end of the stream or an error. -/
theorem C70_frames (hr : r.Remaining bytes fault) (hlen : bytes.length < 2 ^ 64) (buffers : List VecI32) :
    ∀ out ∈ @runOps _ uncheckedBuild _ (@BufferedReader.instReadBytesOfBuild uncheckedBuild) (buffers.map .frame) r,
      Returns out := by
  induction buffers generalizing r bytes with
  | nil => simp [runOps]
  | cons buffer buffers ih =>
    have h := @wp_frame _ uncheckedBuild rfl (@BufferedReader.instReadBytesOfBuild uncheckedBuild) _ _
      (steady_finite fault) buffer r ⟨bytes, hr, hlen⟩
    have h1 : @Op.run _ uncheckedBuild _ (@BufferedReader.instReadBytesOfBuild uncheckedBuild) (.frame buffer) r =
        (do
          let b ← @readNextOrEof _ (@BufferedReader.instReadBytesOfBuild uncheckedBuild) _ uncheckedBuild buffer
          pure (Out.block b)) r := rfl
    rw [List.map_cons, @runOps.eq_2 _ uncheckedBuild, h1, Dec.bind_def]
    generalize @readNextOrEof _ (@BufferedReader.instReadBytesOfBuild uncheckedBuild) _ uncheckedBuild buffer r
      = y at h ⊢
    rcases y with ⟨f | o, r'⟩
    · obtain ⟨e, rfl, hk⟩ := h
      intro out hm
      simp only at hm
      by_cases hio : IsIoError (.error (.err e) : Except Fail Out) = true
      · rw [if_pos hio] at hm
        rw [List.mem_singleton.1 hm]
        exact .inr ⟨e, rfl⟩
      · rw [if_neg hio] at hm
        rcases List.mem_cons.1 hm with rfl | hm
        · exact .inr ⟨e, rfl⟩
        · obtain ⟨bs, hr', hlt⟩ := hk (by cases e <;> first | rfl | exact absurd rfl hio)
          exact ih hr' hlt out hm
    · obtain ⟨-, bs, hr', hlt⟩ := h
      intro out hm
      rcases List.mem_cons.1 hm with rfl | hm
      · exact .inl ⟨_, rfl⟩
      · exact ih hr' hlt out hm

/-- **C70.** The sample iterator does not panic either, however often one calls, and whatever the width of
pointers. -/
theorem C70_samples (hr : r.Remaining bytes fault) (hlen : bytes.length < 2 ^ 64) (n : Nat)
    (target : Target) (hw : 32 ≤ target.usizeBits) :
    ∀ x ∈ calls (@FlacSamples.next _ (@BufferedReader.instReadBytesOfBuild uncheckedBuild) _ uncheckedBuild target) n
      (FlacSamples.new r), ∃ y, x = .ok y := by
  have gen : ∀ (n : Nat) (it : FlacSamples BufferedReader), Going (Finite fault) it →
      ∀ x ∈ calls (@FlacSamples.next _ (@BufferedReader.instReadBytesOfBuild uncheckedBuild) _ uncheckedBuild target) n
        it, ∃ y, x = .ok y := by
    intro n
    induction n with
    | zero => intro it _ x hx; simp [calls] at hx
    | succ n ih =>
      intro it hit x hx
      have h := @wp_next _ target hw uncheckedBuild rfl
        (@BufferedReader.instReadBytesOfBuild uncheckedBuild) _ _ (steady_finite fault) it hit
      rw [calls] at hx
      generalize @FlacSamples.next _ (@BufferedReader.instReadBytesOfBuild uncheckedBuild) _ uncheckedBuild target it
        = y at h hx
      rcases y with ⟨f | y, it'⟩
      · obtain ⟨⟨e, he, -⟩, hn, -⟩ := h
        exact absurd he (hn e)
      · rcases List.mem_cons.1 hx with rfl | hx
        · exact ⟨_, rfl⟩
        · exact ih _ h.2 x hx
  exact gen n _ (.inr ⟨⟨bytes, hr, hlen⟩, .inl ⟨rfl, rfl⟩⟩)

/-- **C70.** The same for any reader that does not panic, and any sequence of operations, whether they fail or not.
With an endless reader, a call need not end (`diverged`: there have been `2 ^ 64` zeros in a row). -/
theorem C70_operations [I : ReadBytes σ] {P : σ → Prop} (hP : NeverPanicsAll P) (ops : List Op)
    (hops : ∀ op ∈ ops, op.WellTyped) (s : σ) (hs : P s) :
    ∀ result ∈ @runAll uncheckedBuild σ I ops s, Returns result ∨ result = .error .diverged := by
  induction ops generalizing s with
  | nil => simp [runAll]
  | cons op ops ih =>
    have hop : Quiet (@Op.run _ uncheckedBuild σ I op s).1 ∧ P (@Op.run _ uncheckedBuild σ I op s).2 := by
      by_cases hf : ∃ buffer, op = .frame buffer
      · obtain ⟨buffer, rfl⟩ := hf
        exact (((wp_frame (bd := uncheckedBuild) rfl (NeverPanics.steady hP.toNeverPanics) buffer).any
          (Q' := fun _ => True) fun b => Wp.pure (a := Out.block b) trivial)).quiet hs
      · obtain ⟨h1, h2⟩ := operation_returns hP (hops op List.mem_cons_self) (fun b h => hf ⟨b, h⟩) s hs
        have h3 : @Op.run _ uncheckedBuild σ I op s = @Op.run _ checkedBuild σ I op s :=
          (same_run op uncheckedBuild I I (.refl I)).eq_of (noPanic_of_returns h1)
        rw [h3]
        exact ⟨.inl h1, h2⟩
    intro result hm
    rw [@runAll.eq_2 uncheckedBuild, List.mem_cons] at hm
    rcases hm with rfl | hm
    · exact hop.1
    · exact ih (fun op h => hops op (List.mem_cons_of_mem _ h)) _ hop.2 _ hm

/-- **C70.** The sample iterator with any reader. -/
theorem C70_anySamples [I : ReadBytes σ] {P : σ → Prop} (hP : NeverPanics P) (n : Nat) (s : σ) (hs : P s)
    (target : Target) (hw : 32 ≤ target.usizeBits) :
    ∀ x ∈ calls (@FlacSamples.next σ I _ uncheckedBuild target) n (FlacSamples.new s),
      (∃ y, x = .ok y) ∨ x = .error .diverged := by
  have gen : ∀ (n : Nat) (it : FlacSamples σ), Going P it →
      ∀ x ∈ calls (@FlacSamples.next σ I _ uncheckedBuild target) n it, (∃ y, x = .ok y) ∨ x = .error .diverged := by
    intro n
    induction n with
    | zero => intro it _ x hx; simp [calls] at hx
    | succ n ih =>
      intro it hit x hx
      have h := @wp_next _ target hw uncheckedBuild rfl I _ _ (NeverPanics.steady hP) it hit
      rw [calls] at hx
      generalize @FlacSamples.next σ I _ uncheckedBuild target it = y at h hx
      rcases y with ⟨f | y, it'⟩
      · obtain ⟨⟨hs, hf⟩, hn, hz⟩ := h
        rcases hf with ⟨e, rfl⟩ | rfl
        · exact absurd rfl (hn e)
        · rcases List.mem_cons.1 hx with rfl | hx
          · exact .inr rfl
          · exact ih _ (.inr ⟨hs, .inl hz⟩) x hx
      · rcases List.mem_cons.1 hx with rfl | hx
        · exact .inl ⟨_, rfl⟩
        · exact ih _ h.2 x hx
  exact gen n _ (.inr ⟨hs, .inl ⟨rfl, rfl⟩⟩)

/-- **C70.** The buffered reader is such a reader, as long as the source honours its contract. -/
theorem C70_buffered (outcome : Nat → ReadOutcome) :
    @NeverPanicsAll _ (@BufferedReader.instReadBytesOfBuild uncheckedBuild)
      (fun r : BufferedReader => r.Good ∧ r.inner.outcome = outcome) :=
  neverPanicsAll_ref (BufferedReader.refRd uncheckedBuild) (buffered_neverPanics outcome)

/-- `C70_frames` applies to the stream of 512 MiB on which a checked build panics (`C27_false`). -/
example : ∃ (r : BufferedReader) (bytes : List U8), r.Remaining bytes none ∧ bytes.length < 2 ^ 64 ∧
    (readNextOrEof .empty r).1 = .error (.panic .overflow) ∧
    Returns (@readNextOrEof _ (@BufferedReader.instReadBytesOfBuild uncheckedBuild) _ uncheckedBuild .empty r).1 := by
  have hr := bytewise_remaining (hugeFrame (2 ^ 29))
  have hl : (hugeFrame (2 ^ 29)).length < 2 ^ 64 := by rw [hugeFrame_length]; decide
  refine ⟨_, _, hr, hl, ?_, ?_⟩
  · rw [Sim.result ((simBufferedRd none).readNextOrEof .empty) hr]
    exact hugeFrame_panics (Nat.le_refl _) _ _
  · exact C70_frame hr hl .empty

/-- The theorems of C70 for a source that never ends and fails again and again. -/
example (n : Nat) :
    (∀ result ∈ @runAll uncheckedBuild _ _ [.readInto 7, .skip 3, .metadataBlockWithHeader, .frame .empty]
      (BufferedReader.new endlessSource), Returns result ∨ result = .error .diverged) ∧
    ∀ x ∈ calls (@FlacSamples.next _ _ _ uncheckedBuild target32) n (FlacSamples.new (BufferedReader.new endlessSource)),
      (∃ y, x = .ok y) ∨ x = .error .diverged := by
  have hc := endlessSource_mild.1
  have hP := buffered_neverPanics endlessSource.outcome
  exact ⟨C70_operations hP _ (by simp [Op.WellTyped]) _ (buffered_new hc),
    C70_anySamples hP.toNeverPanics n _ (buffered_new hc) target32 (by decide)⟩

end Claxon.Props
