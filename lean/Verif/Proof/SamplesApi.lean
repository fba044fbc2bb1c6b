import Verif.Proof.Samples
import Verif.Proof.Suffix
import Verif.Proof.Block

/-! # The sample iterator of a buffered reader -/

namespace Claxon

open Spec ReadBytes

/-- The states of the iterator. -/
inductive SamplesInv [FuzzCfg] (bytes : List U8) (fault : Option Nat) : FlacSamples BufferedReader → Prop where
  | failed {it : FlacSamples BufferedReader} (h : it.hasFailed = true) : SamplesInv bytes fault it
  | inside {r : BufferedReader} {rest : List U8} {b : Block} {buffer : VecI32} {p : Nat} (hb : b.Shape buffer)
      (hp : p < b.duration * b.channels) (hr : r.Remaining rest fault) (hs : rest <:+ bytes) :
      SamplesInv bytes fault (FlacSamples.at r b p)
  | between {r : BufferedReader} {rest : List U8} (hr : r.Remaining rest fault) (hs : rest <:+ bytes) :
      SamplesInv bytes fault (FlacSamples.new r)

/-- Reading a frame at the end of the file. -/
theorem readNextOrEof_nil [FuzzCfg] (buffer : VecI32) :
    readNextOrEof buffer (⟨[], none⟩ : Flat) = (.ok none, ⟨[], none⟩) := by
  rw [readNextOrEof_flat]; rfl

theorem readNextOrEof_none [FuzzCfg] {buffer : VecI32} {s s' : Flat} (h : readNextOrEof buffer s = (.ok none, s')) :
    s' = ⟨[], none⟩ := by
  have h1 := frame_reads_any buffer s
  rw [h] at h1
  obtain ⟨h1, h2⟩ := h1
  rcases s with ⟨bs, f⟩
  simp only at h1 h2
  subst h2
  match bs, h1 with
  | [], _ => rw [readNextOrEof_nil] at h; cases h; rfl
  | [a], _ => rw [readNextOrEof_flat] at h; cases h; rfl

/-- What a call does. -/
structure SamplesStep [FuzzCfg] (bytes : List U8) (fault : Option Nat) (it : FlacSamples BufferedReader)
    (x : Except Fail (Option (Except Error I32))) (it' : FlacSamples BufferedReader) : Prop where
  inv : SamplesInv bytes fault it'
  ok : (∃ y, x = .ok y) ∨ x = .error (.panic .overflow) ∧ LongZeros (bytesToBits bytes)
  none : x = .ok none → it'.hasFailed = true ∨ ∃ r : BufferedReader, it' = FlacSamples.new r ∧ r.Remaining [] none
  err : ∀ e, x = .ok (some (.error e)) → it'.hasFailed = true

theorem afterBlock_step [FuzzCfg] {bytes rest : List U8} {fault : Option Nat} {r : BufferedReader}
    (hr : r.Remaining rest fault) (hs : rest <:+ bytes) (buffer : VecI32) (it : FlacSamples BufferedReader) :
    SamplesStep bytes fault it (FlacSamples.afterBlock buffer r).1 (FlacSamples.afterBlock buffer r).2 := by
  have hsim := (simBufferedRd fault).readNextOrEof buffer
  have hrem := Sim.remaining hsim ((simSuffix rest fault).rd.readNextOrEof buffer) hr
  have hres := Sim.result hsim hr
  have hflat := frame_reads_any buffer ⟨rest, fault⟩
  unfold FlacSamples.afterBlock
  rcases hx : readNextOrEof buffer r with ⟨e | _ | b, r'⟩
  · rw [hx] at hrem hres
    rcases e with e | p | _ | _
    · refine ⟨.failed rfl, .inl ⟨_, rfl⟩, ?_, fun _ _ => rfl⟩
      intro h; cases h
    all_goals
      obtain ⟨rest', h1, h2, h3⟩ := hrem rfl
      refine ⟨.between h3 (h1.trans hs), ?_, (by intro h; cases h), (by intro e h; cases h)⟩
      rw [h2] at hflat
      obtain ⟨pre, hpre⟩ := hs
      refine .inr ⟨congrArg _ hflat.1, ?_⟩
      rw [← hpre, bytesToBits_append]
      exact Spec.LongZeros.append_left hflat.2 _
  · rw [hx] at hrem hres
    obtain ⟨rest', h1, h2, h3⟩ := hrem rfl
    refine ⟨.between h3 (h1.trans hs), .inl ⟨_, rfl⟩, ?_, (by intro e h; cases h)⟩
    intro _
    have := readNextOrEof_none h2
    simp only [Flat.mk.injEq] at this
    obtain ⟨rfl, rfl⟩ := this
    exact .inr ⟨_, rfl, h3⟩
  · rw [hx] at hrem
    obtain ⟨rest', h1, h2, h3⟩ := hrem rfl
    have hshape := post_block buffer _ _ _ hx b rfl
    obtain ⟨x, h4, h5⟩ := hshape.nth_zero
    have hcur : FlacSamples.current (FlacSamples.at r' b 0) = (.ok (some (.ok x)), FlacSamples.at r' b 0) := by
      apply FlacSamples.current_run
      exact h4
    simp only
    rw [hcur]
    refine ⟨.inside hshape ?_ h3 (h1.trans hs), .inl ⟨_, rfl⟩, (by intro h; cases h), (by intro e h; cases h)⟩
    have := hshape.channels; have := hshape.blockSize
    exact Nat.mul_pos (by show 0 < b.blockSize; omega) (by omega)

theorem samples_step [FuzzCfg] {bytes : List U8} {fault : Option Nat} {it : FlacSamples BufferedReader}
    (h : SamplesInv bytes fault it) :
    SamplesStep bytes fault it (FlacSamples.next it).1 (FlacSamples.next it).2 := by
  cases h with
  | failed h =>
    rw [FlacSamples.next_failed h]
    exact ⟨.failed h, .inl ⟨_, rfl⟩, fun _ => .inl h, (by intro e h; cases h)⟩
  | between hr hs =>
    rw [FlacSamples.next_atEnd (FlacSamples.atEnd_new _)]
    exact afterBlock_step hr hs _ _
  | inside hb hp hr hs =>
    rename_i r rest b buffer p
    rcases Nat.lt_or_ge (p + 1) (b.duration * b.channels) with hlt | hge
    · obtain ⟨x, h1, h2⟩ := FlacSamples.next_inside hb r hlt
      rw [h2]
      exact ⟨.inside hb hlt hr hs, .inl ⟨_, rfl⟩, (by intro h; cases h), (by intro e h; cases h)⟩
    · rw [FlacSamples.next_atEnd (FlacSamples.atEnd_at hb r (by omega))]
      exact afterBlock_step hr hs _ _

theorem calls_failed [FuzzCfg] {it : FlacSamples BufferedReader} (h : it.hasFailed = true) (n : Nat) :
    calls FlacSamples.next n it = List.replicate n (.ok none) := by
  induction n with
  | zero => rfl
  | succ n ih => rw [calls, FlacSamples.next_failed h, ih]; rfl

theorem calls_eof [FuzzCfg] {r : BufferedReader} (h : r.Remaining [] none) (n : Nat) :
    calls FlacSamples.next n (FlacSamples.new r) = List.replicate n (.ok none) := by
  induction n generalizing r with
  | zero => rfl
  | succ n ih =>
    obtain ⟨r', h1, h2⟩ := Sim.ok ((simBufferedRd none).readNextOrEof .empty) h (readNextOrEof_nil .empty)
    have h3 : FlacSamples.next (FlacSamples.new r) = (.ok none, FlacSamples.new r') := by
      rw [FlacSamples.next_atEnd (FlacSamples.atEnd_new _)]
      unfold FlacSamples.afterBlock
      rw [h1]
      rfl
    rw [calls, h3, ih h2]
    rfl

theorem calls_atEnd_eof [FuzzCfg] {it : FlacSamples BufferedReader} {r : BufferedReader} {buffer : VecI32}
    (hit : it.AtEnd r buffer) (h : r.Remaining [] none) (n : Nat) :
    calls FlacSamples.next n it = List.replicate n (.ok none) := by
  cases n with
  | zero => rfl
  | succ n =>
    obtain ⟨r', h1, h2⟩ := Sim.ok ((simBufferedRd none).readNextOrEof buffer) h (readNextOrEof_nil buffer)
    have h3 : FlacSamples.next it = (.ok none, FlacSamples.new r') := by
      rw [FlacSamples.next_atEnd hit]
      unfold FlacSamples.afterBlock
      rw [h1]
      rfl
    rw [calls, h3, calls_eof h2]
    rfl

theorem getElem?_calls_succ {σ α : Type} (m : Dec σ α) (n k : Nat) (s : σ) :
    (calls m (n + 1) s)[k + 1]? = (calls m n (m s).2)[k]? := by rw [calls]; rfl

/-! ### The samples of a block -/

theorem blockSamples_holds {b : Block} {buffer : VecI32} {time : Nat} {channels : List (List Int)}
    (hs : b.Shape buffer) (hh : b.Holds time channels) :
    blockSamples b = (interleave b.duration channels).map fun v => .ok (BitVec.ofInt 32 v) := by
  unfold blockSamples interleave
  rw [List.map_flatMap]
  apply List.flatMap_congr
  intro i hi
  have hi' : i < b.blockSize := List.mem_range.1 hi
  have key : ∀ c (hc : c < channels.length), b.sample c i = .ok (BitVec.ofInt 32 (channels[c][i]'(by
      rw [hh.duration _ (List.getElem_mem hc)]; exact hi'))) := by
    intro c hc
    obtain ⟨xs, h1, h2⟩ := hh.channel c hc
    have hle : (c + 1) * b.blockSize ≤ b.buffer.data.length := by
      rw [hs.length, hh.count]; exact Nat.mul_le_mul_right _ hc
    have hc' : c < b.channels := by rw [hh.count]; exact hc
    rw [hs.channel_eq (by decide) hc', slice_ok ⟨Nat.mul_le_mul_right _ (by omega), hle⟩] at h1
    cases h1
    have he : (c + 1) * b.blockSize = c * b.blockSize + b.blockSize := by rw [Nat.add_mul, Nat.one_mul]
    rw [hs.sample_eq (by decide) hc' hi', index_ok (by omega)]
    simp only [← h2]
    simp
  rw [hh.count]
  apply List.ext_getElem?
  intro c
  have hfm : channels.filterMap (fun ch => ch[i]?) =
      channels.map (fun ch => ch.getD i 0) := by
    rw [← List.filterMap_eq_map]
    apply List.filterMap_congr
    intro ch hch
    have : i < ch.length := by rw [hh.duration _ hch]; exact hi'
    simp [this]
  rw [hfm]
  rcases Nat.lt_or_ge c channels.length with hc | hc
  · have : i < channels[c].length := by rw [hh.duration _ (List.getElem_mem hc)]; exact hi'
    simp [hc, key, this]
  · simp [hc]

end Claxon
