import Verif.Model.Examples
import Verif.Spec.Client
import Verif.Props.Samples
import Verif.Props.Block

/-! # The example programs -/

namespace Claxon

open Spec ReadBytes

namespace Examples

variable {τ ω α β : Type}

/-- The loop performs its body for the items of the iterator. -/
theorem forLoop_of {next : Dec τ (Option α)} {body : α → Dec ω Unit} :
    ∀ (items : List α) (fuel : Nat) (it : τ),
      calls next (items.length + 1) it = items.map (fun a => .ok (some a)) ++ [.ok none] →
      items.length < fuel → forLoop next body fuel it = items.forM body
  | [], fuel, it, h, hf => by
    obtain ⟨fuel, rfl⟩ : ∃ k, fuel = k + 1 := ⟨fuel - 1, by simp at hf; omega⟩
    have h1 : (next it).1 = .ok none := by simpa [calls] using h
    rcases hx : next it with ⟨x, it'⟩
    rw [hx] at h1
    simp only at h1
    subst h1
    unfold forLoop
    rw [hx]
    rfl
  | a :: items, fuel, it, h, hf => by
    obtain ⟨fuel, rfl⟩ : ∃ k, fuel = k + 1 := ⟨fuel - 1, by simp at hf; omega⟩
    rw [List.length_cons, calls] at h
    simp only [List.map_cons, List.cons_append, List.cons.injEq] at h
    rcases hx : next it with ⟨x, it'⟩
    rw [hx] at h
    simp only at h
    obtain ⟨rfl, h2⟩ := h
    unfold forLoop
    rw [hx]
    simp only
    rw [forLoop_of items fuel it' h2 (by simp at hf; omega)]
    rfl

theorem forM_writeSample (xs : List α) (w : Option (Wav α)) :
    (xs.forM writeSample : Dec (Option (Wav α)) PUnit) w =
      (.ok (), w.map fun w => { w with samples := w.samples ++ xs }) := by
  induction xs generalizing w with
  | nil => cases w <;> simp [List.forM]
  | cons x xs ih =>
    show ((writeSample x >>= fun _ => xs.forM writeSample) : Dec _ _) w = _
    rw [Dec.bind_ok _ (show writeSample x w = (.ok (), _) from rfl), ih]
    cases w <;> simp

theorem forM_ok {body : α → Dec ω Unit} {f : α → ω → ω} (h : ∀ a w, body a w = (.ok (), f a w)) (xs : List α)
    (w : ω) : (xs.forM body : Dec ω PUnit) w = (.ok (), xs.foldl (fun w a => f a w) w) := by
  induction xs generalizing w with
  | nil => rfl
  | cons x xs ih =>
    show ((body x >>= fun _ => xs.forM body) : Dec _ _) w = _
    rw [Dec.bind_ok _ (h x w), ih]
    rfl

/-- The samples of a block with two channels. -/
theorem stereo_items {σ : Type} [ReadBytes σ] {buffer : VecI32} {b : Block} {s s' : σ}
    (h : readNextOrEof buffer s = (.ok (some b), s')) (h2 : b.channels = 2) :
    ∃ (it : StereoSamples) (pairs : List (I32 × I32)), b.stereoSamples = .ok it ∧ pairs.length = b.duration ∧
      calls StereoSamples.next (pairs.length + 1) it = pairs.map (fun p => .ok (some p)) ++ [.ok none] ∧
      blockSamples b = (pairs.flatMap fun p => [p.1, p.2]).map .ok := by
  obtain ⟨left, right, it, hl, hr, hit, hc⟩ := Props.C29_stereo h h2 1
  have ll : left.length = b.duration := by
    obtain ⟨xs, h3, h4⟩ := Props.C29_channel h (c := 0) (by omega)
    rw [h3] at hl; cases hl; exact h4
  have lr : right.length = b.duration := by
    obtain ⟨xs, h3, h4⟩ := Props.C29_channel h (c := 1) (by omega)
    rw [h3] at hr; cases hr; exact h4
  have len : (List.zip left right).length = b.duration := by simp [ll, lr]
  refine ⟨it, List.zip left right, hit, len, ?_, ?_⟩
  · rw [len, hc, List.zip, List.map_zipWith]
    rfl
  · have e : List.zip left right = (List.range b.duration).map fun i => (left.getD i 0, right.getD i 0) := by
      apply List.ext_getElem (by simp [ll, lr])
      intro i h3 h4
      have : i < b.duration := by simpa using h4
      simp [List.getD, ll, lr, this]
    rw [e, List.flatMap_map, List.map_flatMap, blockSamples]
    refine List.flatMap_congr fun i hi => ?_
    have hi := List.mem_range.1 hi
    obtain ⟨xs, h3, h4, h5⟩ := Props.C29_sample h (c := 0) (i := i) (by omega) hi
    obtain ⟨ys, h6, h7, h8⟩ := Props.C29_sample h (c := 1) (i := i) (by omega) hi
    rw [h4] at hl; cases hl
    rw [h7] at hr; cases hr
    rw [h2]
    simp [List.range_succ, h5, h8, h3, h6]

/-- decode.rs writes the samples of a block with two channels. -/
theorem decodeBlock_of {σ : Type} [ReadBytes σ] {buffer : VecI32} {b : Block} {s s' : σ}
    (h : readNextOrEof buffer s = (.ok (some b), s')) (h2 : b.channels = 2) :
    ∃ xs : List I32, decodeBlock b = .ok (xs.map (BitVec.setWidth 16)) ∧ blockSamples b = xs.map .ok := by
  obtain ⟨it, pairs, hit, hlen, hc, hb⟩ := stereo_items h h2
  have hs := post_block buffer _ _ _ h b rfl
  have hd : b.duration < 2 ^ 16 := hs.blockSize.2
  refine ⟨_, ?_, hb⟩
  have key : ∀ (ps : List (I32 × I32)) (w : SampleWriter), w.written.length + 2 * ps.length ≤ w.capacity →
      (ps.forM decodeBody : Dec SampleWriter PUnit) w =
        (.ok (), { w with written := w.written ++ (ps.flatMap fun p => [p.1, p.2]).map (BitVec.setWidth 16) }) := by
    intro ps
    induction ps with
    | nil => intro w _; simp [List.forM]
    | cons p ps ih =>
      intro w hw
      rw [List.length_cons] at hw
      show ((decodeBody p >>= fun _ => ps.forM decodeBody) : Dec _ _) w = _
      have e : decodeBody p w = (.ok (), { w with written := w.written ++ [p.1.setWidth 16, p.2.setWidth 16] }) := by
        unfold decodeBody
        have e1 : writeSampleUnchecked p.1 w = (.ok (), { w with written := w.written ++ [p.1.setWidth 16] }) :=
          if_pos (by omega)
        rw [Dec.bind_ok _ e1]
        have e2 : writeSampleUnchecked p.2 { w with written := w.written ++ [p.1.setWidth 16] } =
            (.ok (), { w with written := w.written ++ [p.1.setWidth 16] ++ [p.2.setWidth 16] }) :=
          if_pos (by simp; omega)
        rw [e2, List.append_assoc]
        rfl
      rw [Dec.bind_ok _ e, ih _ (by simp; omega)]
      simp
  unfold decodeBlock
  rw [show mulU 32 b.duration 2 = .ok (b.duration * 2) from mulU_ok (by omega), hit]
  show (match forLoop StereoSamples.next decodeBody (b.duration + 1) it ⟨b.duration * 2, []⟩ with
    | (.ok (), w) => if w.written.length = w.capacity then Except.ok w.written else panicRes .explicit
    | (.error f, _) => .error f) = _
  rw [forLoop_of pairs _ _ hc (by omega), key _ _ (by simp; omega)]
  simp only [List.nil_append]
  rw [if_pos]
  simp [List.length_flatMap, hlen]

theorem decodeBlock_panics {b : Block} (h : b.channels ≠ 2) (hd : b.duration < 2 ^ 16) :
    decodeBlock b = .error (.panic .explicit) := by
  unfold decodeBlock
  rw [show mulU 32 b.duration 2 = .ok (b.duration * 2) from mulU_ok (by omega), Props.C29_notStereo h]
  rfl

/-- decode_ogg.rs and decode_mp4.rs write the samples of a block with two channels. -/
theorem writeStereo_of {σ : Type} [ReadBytes σ] {buffer : VecI32} {b : Block} {s s' : σ}
    (h : readNextOrEof buffer s = (.ok (some b), s')) (h2 : b.channels = 2) :
    ∃ xs : List I32, blockSamples b = xs.map .ok ∧ ∀ w,
      writeStereo b w = (.ok (), w.map fun w => { w with samples := w.samples ++ xs }) := by
  obtain ⟨it, pairs, hit, hlen, hc, hb⟩ := stereo_items h h2
  refine ⟨_, hb, fun w => ?_⟩
  unfold writeStereo
  rw [Dec.bind_liftM_of hit, forLoop_of pairs _ _ hc (by omega)]
  have key : ∀ (ps : List (I32 × I32)) (w : Option (Wav I32)),
      (ps.forM (fun p => do writeSample p.1; writeSample p.2) : Dec (Option (Wav I32)) PUnit) w =
        (.ok (), w.map fun w => { w with samples := w.samples ++ ps.flatMap fun p => [p.1, p.2] }) := by
    intro ps
    induction ps with
    | nil => intro w; cases w <;> simp [List.forM]
    | cons p ps ih =>
      intro w
      show ((_ >>= fun _ => ps.forM _) : Dec _ _) w = _
      rw [Dec.bind_ok (a := ()) (s' := w.map fun w => { w with samples := w.samples ++ [p.1] ++ [p.2] }) _ ?_, ih]
      · cases w <;> simp
      · cases w <;> rfl
  exact key _ _

end Examples

end Claxon
