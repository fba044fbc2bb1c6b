import Verif.Proof.Capacity
import Verif.Proof.Lazy
import Verif.Props.Trace
import Verif.Props.Memory

/-! # C62: the source is only asked for what is needed -/

namespace Claxon.Props

open Claxon Spec ReadBytes

variable {σ : Type}

/-- What holds after every call of the reader, holds after every frame. -/
theorem frame_invariant [ReadBytes σ] {P : σ → Prop} (hP : NeverPanics P) (buffer : VecI32) (s : σ) (hs : P s) :
    P (readNextOrEof buffer s).2 := by
  have hyields : ∀ {s s' : σ} {bytes : List U8}, Yields s bytes s' → P s → P s' := by
    intro s s' bytes hy
    induction hy with
    | nil s => exact id
    | byte h _ ih => exact fun h' => ih (by have := (hP.readU8 _ h').2; rwa [h] at this)
    | byteOrEof h _ ih => exact fun h' => ih (by have := (hP.readU8OrEof _ h').2; rwa [h] at this)
  obtain ⟨bytes, s₁, hy, h⟩ := frame_trace buffer s
  have hs₁ := hyields hy hs
  rcases h with ⟨-, s₂, h1, h2⟩ | ⟨f, s₂, h1 | h1, h2⟩ | ⟨result, h1, h2⟩
  · rw [h2]
    have := (hP.readU8OrEof _ hs₁).2
    rwa [h1] at this
  · rw [h2]
    have := (hP.readU8 _ hs₁).2
    rwa [h1] at this
  · rw [h2]
    have := (hP.readU8OrEof _ hs₁).2
    rwa [h1] at this
  · rw [h1]
    exact hs₁

theorem op_invariant [ReadBytes σ] {P : σ → Prop} (hP : NeverPanicsAll P) (op : Op) (hw : op.WellTyped) (s : σ)
    (hs : P s) : P (op.run s).2 := by
  have hR := mild_returns
  have lift : ∀ {α : Type} {m : Dec σ α} (f : α → Out), Safe P (fun {_} x => Returns x) m →
      P ((do let a ← m; Pure.pure (f a) : Dec σ Out) s).2 :=
    fun f h => (h.bind hR (fun a => .pure hR (f a)) s hs).2
  cases op with
  | readU8 => exact lift .byte (safe_readU8 hR hP)
  | readU8OrEof => exact lift .byteOrEof (safe_readU8OrEof hR hP)
  | readBeU16 => exact lift .u16 (safe_readBeU16 hR hP)
  | readBeU16OrEof => exact lift .u16OrEof (safe_readBeU16OrEof hR hP)
  | readBeU24 => exact lift .u32 (safe_readBeU24 hR hP)
  | readBeU32 => exact lift .u32 (safe_readBeU32 hR hP)
  | readLeU32 => exact lift .u32 (safe_readLeU32 hR hP)
  | readInto n => exact lift .bytes (safe_readInto hR hP hw)
  | skip n => exact lift (fun _ => .done) (safe_skip hR hP hw)
  | frame buffer =>
    have := frame_invariant hP.toNeverPanics buffer s hs
    rw [← BufferedReader.map_state (readNextOrEof buffer) Out.block s] at this
    exact this
  | metadataBlock t n => exact lift .metadata (safe_metadataBlock hR hP t hw)
  | metadataBlockWithHeader => exact lift .metadata (safe_withHeader hR hP)

theorem ops_invariant [ReadBytes σ] {P : σ → Prop} (hP : NeverPanicsAll P) (ops : List Op)
    (hops : ∀ op ∈ ops, op.WellTyped) (s : σ) (hs : P s) : P (afterOps ops s) := by
  induction ops generalizing s with
  | nil => exact hs
  | cons op ops ih =>
    exact ih (fun op h => hops op (List.mem_cons_of_mem _ h)) _
      (op_invariant hP op (hops op List.mem_cons_self) s hs)

theorem buffered_lazy (r0 : BufferedReader) :
    NeverPanicsAll (fun r : BufferedReader => r.Good ∧ BufferedReader.LazyT r0 r 0) := by
  refine ⟨⟨fun r h => ?_, fun r h => ?_⟩, fun n hn r h => ?_, fun n hn r h => ?_, fun n m r h => ?_⟩
  · obtain ⟨h1, h2⟩ := (buffered_neverPanics r.inner.outcome).readU8 r ⟨h.1, rfl⟩
    exact ⟨h1, h2.1, BufferedReader.lazy_readU8 h.1 h.2⟩
  · obtain ⟨h1, h2⟩ := (buffered_neverPanics r.inner.outcome).readU8OrEof r ⟨h.1, rfl⟩
    exact ⟨h1, h2.1, BufferedReader.lazy_readU8OrEof h.1 h.2⟩
  · obtain ⟨h1, h2⟩ := (buffered_neverPanics r.inner.outcome).readInto n hn r ⟨h.1, rfl⟩
    exact ⟨h1, h2.1, BufferedReader.lazy_readInto h.1 h.2 n⟩
  · obtain ⟨h1, h2⟩ := (buffered_neverPanics r.inner.outcome).skip n hn r ⟨h.1, rfl⟩
    exact ⟨h1, h2.1, BufferedReader.lazy_skip h.1 h.2 n⟩
  · exact ⟨.inl ⟨(), rfl⟩, h⟩

theorem good_after {src : Src} (hc : src.Contract) (ops : List Op) (hops : ∀ op ∈ ops, op.WellTyped) :
    (afterOps ops (BufferedReader.new src)).Good :=
  (ops_invariant (buffered_neverPanics src.outcome) ops hops _ (buffered_new hc)).1

/-- **C62.** At any time, also after failures, a buffered reader asks its source for more only if everything that
was delivered before is used up, and not enough: of the calls that are made for some operations (reading bytes,
skipping, reading frames and metadata blocks), all but those that report the end of the file were needed for what
was read. -/
theorem C62_operations {src : Src} (hc : src.Contract) (before ops : List Op)
    (hbefore : ∀ op ∈ before, op.WellTyped) (hops : ∀ op ∈ ops, op.WellTyped) :
    Lazy (afterOps before (BufferedReader.new src)) (afterOps (before ++ ops) (BufferedReader.new src)) ∨
      SourceFails (afterOps before (BufferedReader.new src))
        (afterOps (before ++ ops) (BufferedReader.new src)) := by
  have happ : ∀ (xs ys : List Op) (r : BufferedReader), afterOps (xs ++ ys) r = afterOps ys (afterOps xs r) := by
    intro xs
    induction xs with
    | nil => exact fun _ _ => rfl
    | cons x xs ih => exact fun ys r => ih ys _
  rw [happ]
  exact (ops_invariant (buffered_lazy _) ops hops _ ⟨good_after hc before hbefore, .refl _⟩).2.lazy

/-- **C62.** The bytes that were delivered and not used come next, without another call of the source. There are
never more than 2048 of them. -/
theorem C62_unread {src : Src} (hc : src.Contract) (ops : List Op) (hops : ∀ op ∈ ops, op.WellTyped)
    {r : BufferedReader} (hr : r = afterOps ops (BufferedReader.new src)) :
    r.unread.length ≤ 2048 ∧
    ∀ n ≤ r.unread.length, ∃ r', readInto n r = (.ok (r.unread.take n), r') ∧ r'.inner = r.inner ∧
      r'.unread = r.unread.drop n := by
  have hg := good_after hc ops hops
  rw [← hr] at hg
  have hcap := hg.cap
  have hv := hg.valid
  have hp := hg.pos
  have hlen : r.unread.length = r.numValid - r.pos := by
    simp only [BufferedReader.unread, List.length_drop, List.length_take]
    omega
  refine ⟨by simp only [capacity_eq] at hv; omega, fun n hn => ?_⟩
  show ∃ r', BufferedReader.readInto n r = _ ∧ _
  unfold BufferedReader.readInto BufferedReader.readIntoLoop
  rw [Dec.ite_run]
  by_cases h0 : n > 0
  · refine ⟨{ r with pos := r.pos + n }, ?_, rfl, ?_⟩
    · have hstep : BufferedReader.readIntoStep n r = (.ok (r.unread.take n, 0), { r with pos := r.pos + n }) := by
        unfold BufferedReader.readIntoStep
        have hmin : min n (r.numValid - r.pos) = n := by omega
        rw [Dec.bind_get_run, Dec.bind_liftM_of (subU_ok (by omega)), hmin,
          Dec.bind_liftM_of (slice_ok ⟨by omega, by rw [hcap]; omega⟩),
          Dec.bind_liftM_of (addU_ok (by have := capacity_le; omega)), Dec.bind_set_run, Dec.ite_run,
          if_neg (by omega)]
        simp only [Dec.pure_run, BufferedReader.unread, Prod.mk.injEq, Except.ok.injEq, and_true]
        rw [List.take_drop, List.take_take, Nat.min_eq_left (by omega), Nat.add_comm]
      rw [if_pos h0, Dec.bind_ok _ hstep]
      simp only [BufferedReader.readIntoLoop, Nat.lt_irrefl, gt_iff_lt, if_false, pure_bind, List.append_nil]
      rfl
    · show List.drop (r.pos + n) _ = _
      rw [BufferedReader.unread, List.drop_drop]
  · rw [if_neg h0]
    obtain rfl : n = 0 := by omega
    exact ⟨r, rfl, rfl, rfl⟩

/-- **C62.** The same for opening a stream. -/
theorem C62_open {src : Src} (hc : src.Contract) {fuel : Nat} {o : FlacReaderOptions}
    {reader : FlacReader BufferedReader} (h : FlacReader.newExt fuel src o = .ok reader) :
    ∃ r, (reader.input = .full r ∨ reader.input = .metadataOnly r) ∧ r.inner = reader.intoInner ∧
      (Lazy (BufferedReader.new src) r ∨ SourceFails (BufferedReader.new src) r) := by
  have hP := buffered_lazy (BufferedReader.new src)
  have h1 := (safe_openStream hP fuel o _ ⟨(buffered_new hc).1, .refl _⟩).2
  unfold FlacReader.newExt FlacReader.newExtGen at h
  rcases hx : openStream fuel o (BufferedReader.new src) with ⟨f | ⟨info, vc⟩, r⟩
  · rw [hx] at h; cases h
  · rw [hx] at h h1
    cases h
    refine ⟨r, ?_, ?_, h1.2.lazy⟩
    · unfold FlacReader.make
      by_cases hm : o.metadataOnly = true
      · exact .inr (if_pos hm)
      · exact .inl (if_neg hm)
    · unfold FlacReader.make FlacReader.intoInner
      by_cases hm : o.metadataOnly = true
      · simp only [if_pos hm]; rfl
      · simp only [if_neg hm]; rfl

/-- The reader of the iterator is only used to read frames. -/
theorem next_invariant [ReadBytes σ] {P : σ → Prop} (hP : NeverPanics P) (it : FlacSamples σ)
    (hs : P it.frameReader) : P (FlacSamples.next it).2.frameReader := by
  have hblock : ∀ it : FlacSamples σ, P it.frameReader → P (FlacSamples.nextBlock it).2.frameReader := by
    intro it hs
    unfold FlacSamples.nextBlock
    rw [Dec.bind_get_run, Dec.bind_set_run]
    simp only [Dec.bind_def, Dec.catchErr, FlacSamples.onReader, Dec.zoom]
    have h := frame_invariant hP it.block.intoBuffer it.frameReader hs
    rcases hx : readNextOrEof it.block.intoBuffer it.frameReader with ⟨f | _ | b, s1⟩
    · rw [hx] at h
      cases f <;> exact h
    · rw [hx] at h
      exact h
    · rw [hx] at h
      simp only [Dec.bind_get_run, Dec.bind_set_run, current_state]
      exact h
  unfold FlacSamples.next
  rw [Dec.bind_get_run, Dec.ite_run]
  split
  · exact hs
  cases h : addU 32 it.channel 1 with
  | error f => exact hs
  | ok c =>
    rw [Dec.bind_liftM_of rfl, Dec.ite_run]
    split
    · cases h : addU 32 it.sample 1 with
      | error f => exact hs
      | ok c =>
        rw [Dec.bind_liftM_of rfl, Dec.bind_set_run, Dec.ite_run]
        split
        · exact hblock _ hs
        · rw [current_state]; exact hs
    · rw [Dec.bind_set_run, current_state]; exact hs

/-- **C62.** The same for any number of calls of the sample iterator of a stream that was opened, counted from the
beginning of the stream. -/
theorem C62_samples {src : Src} (hc : src.Contract) {fuel : Nat} {o : FlacReaderOptions}
    {reader : FlacReader BufferedReader} {it : FlacSamples BufferedReader}
    (h : FlacReader.newExt fuel src o = .ok reader) (hit : reader.samples = .ok it) (n : Nat) :
    Lazy (BufferedReader.new src) (after FlacSamples.next n it).frameReader ∨
      SourceFails (BufferedReader.new src) (after FlacSamples.next n it).frameReader := by
  have hP := buffered_lazy (BufferedReader.new src)
  have h1 := (safe_openStream hP fuel o _ ⟨(buffered_new hc).1, .refl _⟩).2
  have gen : ∀ n (it : FlacSamples BufferedReader), (it.frameReader.Good ∧
      BufferedReader.LazyT (BufferedReader.new src) it.frameReader 0) →
      BufferedReader.LazyT (BufferedReader.new src) (after FlacSamples.next n it).frameReader 0 := by
    intro n
    induction n with
    | zero => exact fun it h => h.2
    | succ n ih => exact fun it h => ih _ (next_invariant hP.toNeverPanics it h)
  refine (gen n it ?_).lazy
  unfold FlacReader.newExt FlacReader.newExtGen at h
  rcases hx : openStream fuel o (BufferedReader.new src) with ⟨f | ⟨info, vc⟩, r⟩
  · rw [hx] at h; cases h
  · rw [hx] at h h1
    cases h
    unfold FlacReader.make FlacReader.samples at hit
    by_cases hm : o.metadataOnly = true
    · simp only [if_pos hm] at hit; cases hit
    · simp only [if_neg hm] at hit
      cases hit
      exact h1

theorem delivered_add (outcome : Nat → ReadOutcome) (a n : Nat) :
    delivered outcome (a + n) = delivered outcome a ++ between outcome a n := by
  induction n with
  | zero => simp [between]
  | succ n ih => rw [← Nat.add_assoc, delivered, ih, between, List.append_assoc]; rfl

/-- A byte that is read comes from the buffer, or from a call that delivers something. -/
theorem readU8_calls {r r' : BufferedReader} {b : U8} (h : BufferedReader.readU8 r = (.ok b, r')) :
    r'.inner.calls = r.inner.calls ∨ r'.inner.calls = r.inner.calls + 1 ∧
      ∃ n written, r.inner.outcome r.inner.calls = .ok n written ∧ n ≠ 0 := by
  have take : ∀ {r r' : BufferedReader} {b : U8}, BufferedReader.takeByte r = (.ok b, r') →
      r'.inner = r.inner := by
    intro r r' b h
    unfold BufferedReader.takeByte at h
    rw [Dec.bind_get_run] at h
    cases hx : r.buf[r.pos]? with
    | none => simp only [hx] at h; cases h
    | some c =>
      simp only [hx] at h
      rcases hy : addU 32 r.pos 1 with f | p
      · rw [hy] at h; cases h
      · rw [hy, Dec.bind_liftM_of rfl, Dec.bind_set_run] at h
        cases h
        rfl
  unfold BufferedReader.readU8 at h
  rw [Dec.bind_get_run, Dec.ite_run] at h
  by_cases hp : r.pos = r.numValid
  · rw [if_pos hp] at h
    obtain ⟨h1, h2⟩ := BufferedReader.refill_calls r
    rcases hx : BufferedReader.refill r with ⟨f | u, r1⟩
    · rw [Dec.bind_error _ hx] at h; cases h
    · rw [Dec.bind_ok _ hx, Dec.bind_get_run, Dec.ite_run] at h
      by_cases hz : r1.numValid = 0
      · rw [if_pos hz] at h; cases h
      · rw [if_neg hz] at h
        rw [hx] at h1
        refine .inr ⟨by rw [take h]; exact h1, ?_⟩
        unfold BufferedReader.refill at hx
        simp only at hx
        cases ho : r.inner.outcome r.inner.calls with
        | err code => rw [ho] at hx; cases hx
        | ok n written =>
          refine ⟨n, written, rfl, ?_⟩
          rintro rfl
          rw [ho] at hx
          cases hx
          exact hz rfl
  · rw [if_neg hp] at h
    exact .inl (by rw [take h])

theorem yields_calls {r r' : BufferedReader} {bytes : List U8} (hy : Yields r bytes r') (hg : r.Good) :
    r.inner.calls ≤ r'.inner.calls ∧ ∀ n < r'.inner.calls - r.inner.calls,
      ∃ k written, r.inner.outcome (r.inner.calls + n) = .ok k written ∧ k ≠ 0 := by
  have step : ∀ {s s₁ s' : BufferedReader} {b : U8}, s.Good →
      BufferedReader.readU8 s = (.ok b, s₁) → (s₁.Good →
        s₁.inner.calls ≤ s'.inner.calls ∧ ∀ n < s'.inner.calls - s₁.inner.calls,
          ∃ k written, s₁.inner.outcome (s₁.inner.calls + n) = .ok k written ∧ k ≠ 0) →
      s.inner.calls ≤ s'.inner.calls ∧ ∀ n < s'.inner.calls - s.inner.calls,
          ∃ k written, s.inner.outcome (s.inner.calls + n) = .ok k written ∧ k ≠ 0 := by
    intro s s₁ s' b hg h ih
    have hf := BufferedReader.flows_readU8 hg
    rw [h] at hf
    obtain ⟨i1, i2⟩ := ih hf.good
    have hsrc : s₁.inner.outcome = s.inner.outcome := hf.src
    rw [hsrc] at i2
    rcases readU8_calls h with h1 | ⟨h1, h2⟩
    · rw [h1] at i1 i2
      exact ⟨i1, i2⟩
    · rw [h1] at i1 i2
      refine ⟨by omega, fun n hn => ?_⟩
      cases n with
      | zero => exact h2
      | succ n =>
        have := i2 n (by omega)
        rwa [show s.inner.calls + 1 + n = s.inner.calls + (n + 1) by omega] at this
  induction hy with
  | nil s => exact ⟨Nat.le_refl _, fun n hn => by omega⟩
  | byte h1 rest ih => exact step hg h1 ih
  | byteOrEof h1 rest ih => exact step hg (BufferedReader.readU8OrEof_some hg h1) ih

/-- **C62.** A block is returned as soon as its frame has been delivered: if what is in the buffer and the next
`k` calls contain the frame, no more than `k` calls are made. The frame is what the block was decoded from: it
is decoded in the same way anywhere else. -/
theorem C62_frame {src : Src} (hc : src.Contract) (ops : List Op) (hops : ∀ op ∈ ops, op.WellTyped)
    {r r' : BufferedReader} {buffer : VecI32} {b : Block} (hr : r = afterOps ops (BufferedReader.new src))
    (h : readNextOrEof buffer r = (.ok (some b), r')) :
    ∃ frame : List U8,
      r.unread ++ between r.inner.outcome r.inner.calls (r'.inner.calls - r.inner.calls) = frame ++ r'.unread ∧
      (∀ k, frame.length ≤ (r.unread ++ between r.inner.outcome r.inner.calls k).length →
        r'.inner.calls ≤ r.inner.calls + k) ∧
      ∀ (q : BufferedReader) (rest : List U8) (fault : Option Nat), q.Remaining (frame ++ rest) fault →
        ∃ q', readNextOrEof buffer q = (.ok (some b), q') ∧ q'.Remaining rest fault := by
  have hg := good_after hc ops hops
  rw [← hr] at hg
  have hlazy := (frame_invariant (buffered_lazy r).toNeverPanics buffer r ⟨hg, .refl r⟩).2.lazy
  rw [h] at hlazy
  simp only at hlazy
  obtain ⟨bytes, r₁, hy, hcase⟩ := C58_any_reader buffer r
  rcases hcase with ⟨-, s₂, -, h2⟩ | ⟨f, s₂, -, h2⟩ | ⟨result, h1, h2⟩
  · rw [h] at h2; cases h2
  · rw [h] at h2; cases h2
  rw [h] at h1
  simp only [Prod.mk.injEq] at h1
  obtain ⟨rfl, rfl⟩ := h1
  obtain ⟨hle, hcalls⟩ := yields_calls hy hg
  obtain ⟨-, ho, d, hd1, hd2⟩ := BufferedReader.yields_exact hy hg
  have hd : d = between r.inner.outcome r.inner.calls (r'.inner.calls - r.inner.calls) := by
    have h3 := delivered_add r.inner.outcome r.inner.calls (r'.inner.calls - r.inner.calls)
    rw [show r.inner.calls + (r'.inner.calls - r.inner.calls) = r'.inner.calls by omega] at h3
    have h4 : r'.del = delivered r.inner.outcome r'.inner.calls := by rw [BufferedReader.del, ho]
    rw [h4, h3] at hd1
    exact (List.append_cancel_left hd1).symm
  have hused : r.unread ++ between r.inner.outcome r.inner.calls (r'.inner.calls - r.inner.calls) =
      bytes ++ r'.unread := by rw [← hd]; exact hd2.symm
  rcases hlazy with hlazy | ⟨n, hn, code, _, hcode⟩
  · obtain ⟨-, -, used, hu1, hu2⟩ := hlazy
    obtain rfl : used = bytes := List.append_cancel_right (hu1.symm.trans hused)
    refine ⟨used, hused, fun k hk => ?_, fun q rest fault hq => ?_⟩
    · by_contra hlt
      obtain ⟨j, written, hj, hj0⟩ := hcalls k (by omega)
      have := hu2 k (by omega) (fun w hw => by rw [hj] at hw; cases hw; exact hj0 rfl)
      omega
    · obtain ⟨h3, h4⟩ := h2 q rest fault hq
      exact ⟨_, Prod.ext h3 rfl, h4 rfl⟩
  · obtain ⟨j, written, hj, hj0⟩ := hcalls n hn
    rw [hj] at hcode
    cases hcode

/-- A source that delivers a frame in the first two calls, and three more bytes in the third. -/
def chunkedSource : Src where
  outcome := fun k =>
    if k = 0 then .ok 7 ((exampleFrame.bytes 16).take 7)
    else if k = 1 then .ok ((exampleFrame.bytes 16).length - 7) ((exampleFrame.bytes 16).drop 7)
    else .ok 3 [1#8, 2#8, 3#8]
  calls := 0

theorem chunkedSource_contract : chunkedSource.Contract := by
  intro k n written h
  have hlen : (exampleFrame.bytes 16).length = 24 := by decide +kernel
  simp only [chunkedSource] at h
  split at h
  · cases h
    rw [List.length_take, hlen]
    decide
  · split at h
    · cases h
      rw [List.length_drop, hlen]
      decide
    · cases h
      decide

/-- The block is returned after two calls, and nothing is left in the buffer. -/
example : ∃ b r', readNextOrEof .empty (BufferedReader.new chunkedSource) = (.ok (some b), r') ∧
    b.channels = 2 ∧ r'.inner.calls = 2 ∧ r'.unread = [] := by
  have h : (match readNextOrEof .empty (BufferedReader.new chunkedSource) with
      | (.ok (some b), r') => decide (b.channels = 2 ∧ r'.inner.calls = 2 ∧ r'.unread = [])
      | _ => false) = true := by decide +kernel
  generalize readNextOrEof .empty (BufferedReader.new chunkedSource) = x at h
  rcases x with ⟨e | _ | b, r'⟩
  · cases h
  · cases h
  · exact ⟨b, r', rfl, of_decide_eq_true h⟩

/-- The theorems of C62 for this source: what was delivered in the first call is given out without another call, and
another frame after the first one needs as many calls as it takes. -/
example (ops : List Op) (hops : ∀ op ∈ ops, op.WellTyped) :
    (afterOps [.readU8] (BufferedReader.new chunkedSource)).unread = ((exampleFrame.bytes 16).take 7).tail ∧
    (∃ r', readInto 6 (afterOps [.readU8] (BufferedReader.new chunkedSource)) =
      (.ok ((exampleFrame.bytes 16).take 7).tail, r') ∧ r'.inner.calls = 1) ∧
    (Lazy (afterOps [.readU8] (BufferedReader.new chunkedSource))
        (afterOps ([.readU8] ++ ops) (BufferedReader.new chunkedSource)) ∨
      SourceFails (afterOps [.readU8] (BufferedReader.new chunkedSource))
        (afterOps ([.readU8] ++ ops) (BufferedReader.new chunkedSource))) := by
  have hu : (afterOps [.readU8] (BufferedReader.new chunkedSource)).unread = ((exampleFrame.bytes 16).take 7).tail := by
    decide +kernel
  refine ⟨hu, ?_, C62_operations chunkedSource_contract _ _ (by simp [Op.WellTyped]) hops⟩
  obtain ⟨-, h⟩ := C62_unread chunkedSource_contract [.readU8] (by simp [Op.WellTyped]) rfl
  obtain ⟨r', h1, h2, -⟩ := h 6 (by rw [hu]; decide +kernel)
  refine ⟨r', ?_, by rw [h2]; decide +kernel⟩
  rw [h1, hu, show (((exampleFrame.bytes 16).take 7).tail).take 6 = ((exampleFrame.bytes 16).take 7).tail by
    decide +kernel]

/-- And for opening a stream, and its samples. -/
example (n : Nat) {src : Src} (hsrc : src = bytewise (streamMarker ++
      metadataBytes (infoBlock false :: [paddingBlock false, commentBlock true]) ++ exampleFrame.bytes 16)) :
    ∃ (reader : FlacReader BufferedReader) (it : FlacSamples BufferedReader),
    FlacReader.newExt 3 src .default = .ok reader ∧ reader.samples = .ok it ∧
    (∃ r, (reader.input = .full r ∨ reader.input = .metadataOnly r) ∧
      (Lazy (BufferedReader.new src) r ∨ SourceFails (BufferedReader.new src) r)) ∧
    (Lazy (BufferedReader.new src) (after FlacSamples.next n it).frameReader ∨
      SourceFails (BufferedReader.new src) (after FlacSamples.next n it).frameReader) := by
  have hc : src.Contract := hsrc ▸ bytewise_contract _
  obtain ⟨reader, h1, -⟩ := C36_open exampleMetadata (fuel := 3) (by decide) (hsrc ▸ bytewise_delivers _)
  obtain ⟨r, h3, -, h4⟩ := C62_open hc h1
  obtain ⟨frames, -, h5, -⟩ := C46_ok h1 rfl
  exact ⟨reader, _, h1, h5, ⟨r, h3, h4⟩, C62_samples hc h1 h5 n⟩

end Claxon.Props
