import Verif.Proof.Client
import Verif.Proof.Bytes

/-! # C01, C03, C52: reading bytes -/

namespace Claxon.Props

open Claxon Spec ReadBytes

/-! ## Sources for the examples -/

/-- A source that delivers three bytes in two chunks, scribbling over the buffer behind the first one,
and then reports the end of the file. -/
def exampleSource : Src where
  outcome := fun k =>
    if k = 0 then .ok 2 [0x12, 0x34, 0xff] else if k = 1 then .ok 1 [0x56] else .ok 0 []
  calls := 0

theorem exampleSource_delivers : exampleSource.Delivers [0x12, 0x34, 0x56] none :=
  .chunk (k := 0) (n := 2) (written := [0x12, 0x34, 0xff]) (rest := [0x56]) rfl (by decide) (by decide)
    (by decide)
    (.chunk (k := 1) (n := 1) (written := [0x56]) (rest := []) rfl (by decide) (by decide) (by decide)
      (.eof fun j hj => ⟨[], by
        show (if j = 0 then _ else if j = 1 then _ else _) = _
        rw [if_neg (by omega), if_neg (by omega)]⟩))

/-- A source that delivers the same bytes in one chunk. -/
def exampleSource' : Src where
  outcome := fun k => if k = 0 then .ok 3 [0x12, 0x34, 0x56] else .ok 0 [1, 2, 3]
  calls := 0

theorem exampleSource'_delivers : exampleSource'.Delivers [0x12, 0x34, 0x56] none :=
  .chunk (k := 0) (n := 3) (written := [0x12, 0x34, 0x56]) (rest := []) rfl (by decide) (by decide)
    (by decide)
    (.eof fun j hj => ⟨[1, 2, 3], by
      show (if j = 0 then _ else _) = _
      rw [if_neg (by omega)]⟩)

/-- A source that delivers two bytes and then fails. -/
def failingSource : Src where
  outcome := fun k => if k = 0 then .ok 2 [0x12, 0x34] else .err 7 [0x99]
  calls := 0

theorem failingSource_delivers : failingSource.Delivers [0x12, 0x34] (some 7) :=
  .chunk (k := 0) (n := 2) (written := [0x12, 0x34]) (rest := []) rfl (by decide) (by decide)
    (by decide) (.fault rfl)

/-! ## C01 -/

/-- **C01.** The results of every sequence of operations on a buffered reader (up to the first I/O
error) are those of the flat reader, which knows only which bytes its source delivers and how it
ends. -/
theorem C01_operations {src : Src} {bytes : List U8} {fault : Option Nat}
    (h : src.Delivers bytes fault) (ops : List Op) (hops : ∀ op ∈ ops, op.WellTyped) :
    runOps ops (BufferedReader.new src) = runOps ops (Flat.mk bytes fault) :=
  (simAllBuffered fault).runOps ops hops _ _ (BufRel.new h)

/-- **C01.** Two sources that deliver the same bytes, in whatever chunks, cannot be told apart: by
operations on the reader, by opening a stream, by reading samples or blocks, or by iterating over
the metadata. -/
theorem C01_chunking {src₁ src₂ : Src} {bytes : List U8} {fault : Option Nat}
    (h₁ : src₁.Delivers bytes fault) (h₂ : src₂.Delivers bytes fault) :
    (∀ ops : List Op, (∀ op ∈ ops, op.WellTyped) →
      runOps ops (BufferedReader.new src₁) = runOps ops (BufferedReader.new src₂)) ∧
    (∀ fuel options, openSession fuel options (BufferedReader.new src₁) =
      openSession fuel options (BufferedReader.new src₂)) ∧
    (∀ fuel options n, sampleSession fuel options n (BufferedReader.new src₁) =
      sampleSession fuel options n (BufferedReader.new src₂)) ∧
    (∀ fuel options (ops : List Op), (∀ op ∈ ops, op.WellTyped) →
      blockSession fuel options ops (BufferedReader.new src₁) =
        blockSession fuel options ops (BufferedReader.new src₂)) ∧
    (∀ n, calls MetadataBlockReader.next n (MetadataBlockReader.new (BufferedReader.new src₁)) =
      calls MetadataBlockReader.next n (MetadataBlockReader.new (BufferedReader.new src₂))) := by
  have h := simAllBuffered fault
  have r₁ := BufRel.new h₁
  have r₂ := BufRel.new h₂
  refine ⟨fun ops hops => ?_, fun fuel o => ?_, fun fuel o n => ?_, fun fuel o ops hops => ?_,
    fun n => ?_⟩
  · rw [h.runOps ops hops _ _ r₁, h.runOps ops hops _ _ r₂]
  · rw [h.openSession fuel o r₁, h.openSession fuel o r₂]
  · rw [h.sampleSession fuel o n r₁, h.sampleSession fuel o n r₂]
  · rw [h.blockSession fuel o ops hops r₁, h.blockSession fuel o ops hops r₂]
  · rw [h.metadataCalls n r₁, h.metadataCalls n r₂]

/-- Two different chunkings of the same bytes. -/
example : exampleSource.outcome ≠ exampleSource'.outcome ∧
    exampleSource.Delivers [0x12, 0x34, 0x56] none ∧ exampleSource'.Delivers [0x12, 0x34, 0x56] none :=
  ⟨fun h => by have := congrFun h 0; revert this; decide, exampleSource_delivers,
    exampleSource'_delivers⟩

/-- The results are not all failures. -/
example : runOps [.readU8, .readBeU16, .readU8OrEof] (Flat.mk [0x12, 0x34, 0x56] none) =
    [.ok (.byte 0x12), .ok (.u16 0x3456), .ok (.byteOrEof none)] := by decide

/-! ## C52 -/

/-- **C52.** A `Cursor` and a `BufferedReader` over the same bytes give the same results. -/
theorem C52_cursor {src : Src} {bytes : List U8} (hlen : bytes.length < 2 ^ 63)
    (h : src.Delivers bytes none) :
    (∀ ops : List Op, (∀ op ∈ ops, op.WellTyped) →
      runOps ops (Cursor.mk bytes 0) = runOps ops (BufferedReader.new src)) ∧
    (∀ fuel options, openSession fuel options (Cursor.mk bytes 0) =
      openSession fuel options (BufferedReader.new src)) ∧
    (∀ fuel options n, sampleSession fuel options n (Cursor.mk bytes 0) =
      sampleSession fuel options n (BufferedReader.new src)) ∧
    (∀ fuel options (ops : List Op), (∀ op ∈ ops, op.WellTyped) →
      blockSession fuel options ops (Cursor.mk bytes 0) =
        blockSession fuel options ops (BufferedReader.new src)) ∧
    (∀ n, calls MetadataBlockReader.next n (MetadataBlockReader.new (Cursor.mk bytes 0)) =
      calls MetadataBlockReader.next n (MetadataBlockReader.new (BufferedReader.new src))) := by
  have h₁ := simAllCursor bytes
  have h₂ := simAllBuffered none
  have r₁ : CursorRel bytes (Cursor.mk bytes 0) ⟨bytes, none⟩ := CursorRel.new hlen
  have r₂ := BufRel.new h
  refine ⟨fun ops hops => ?_, fun fuel o => ?_, fun fuel o n => ?_, fun fuel o ops hops => ?_,
    fun n => ?_⟩
  · rw [h₁.runOps ops hops _ _ r₁, h₂.runOps ops hops _ _ r₂]
  · rw [h₁.openSession fuel o r₁, h₂.openSession fuel o r₂]
  · rw [h₁.sampleSession fuel o n r₁, h₂.sampleSession fuel o n r₂]
  · rw [h₁.blockSession fuel o ops hops r₁, h₂.blockSession fuel o ops hops r₂]
  · rw [h₁.metadataCalls n r₁, h₂.metadataCalls n r₂]

example : ([0x12, 0x34, 0x56] : List U8).length < 2 ^ 63 ∧
    exampleSource.Delivers [0x12, 0x34, 0x56] none := ⟨by decide, exampleSource_delivers⟩

/-! ## C03 -/

/-- What it means that `m` reads exactly `n` bytes, and returns what `value` says about them: for
every state of a buffered reader, with `bytes` to come in whatever chunks, and for every cursor. -/
def ReadsExactly {α : Type} (n : Nat) (m : ∀ {σ : Type} [ReadBytes σ], Dec σ α)
    (value : List U8 → α → Prop) : Prop :=
  (∀ (r : BufferedReader) (bytes rest : List U8) (fault : Option Nat), bytes.length = n →
    r.Remaining (bytes ++ rest) fault →
      ∃ a r', m r = (.ok a, r') ∧ value bytes a ∧ r'.Remaining rest fault) ∧
  (∀ (r : BufferedReader) (bytes : List U8), bytes.length < n → r.Remaining bytes none →
    (m r).1 = .error (.err (.ioError .unexpectedEof))) ∧
  (∀ (r : BufferedReader) (bytes : List U8) (code : Nat), bytes.length < n →
    r.Remaining bytes (some code) → (m r).1 = .error (.err (.ioError (.inner code)))) ∧
  (∀ (data : List U8) (pos : Nat), data.length < 2 ^ 63 → pos + n ≤ data.length →
    ∃ a, m (Cursor.mk data pos) = (.ok a, Cursor.mk data (pos + n)) ∧
      value ((data.drop pos).take n) a) ∧
  (∀ (data : List U8) (pos : Nat), data.length < 2 ^ 63 → pos ≤ data.length →
    data.length < pos + n →
    (m (Cursor.mk data pos)).1 = .error (.err (.ioError .unexpectedEof)))

theorem readsExactly {α : Type} {n : Nat} {m : ∀ {σ : Type} [ReadBytes σ], Dec σ α}
    {value : List U8 → α → Prop}
    (hb : ∀ fault, Sim (BufRel fault) (FaultOf fault) True (m : Dec BufferedReader α) m)
    (hc : ∀ data, Sim (CursorRel data) IsEof True (m : Dec Cursor α) m)
    (hok : ∀ bytes, bytes.length = n → ∃ a, value bytes a ∧ BReads m bytes a)
    (hshort : ∀ bytes fault, bytes.length < n →
      (m (Flat.mk bytes fault)).1 = .error (Flat.endFail fault)) :
    ReadsExactly n m value := by
  refine ⟨fun r bytes rest fault hn hr => ?_, fun r bytes hn hr => ?_, fun r bytes code hn hr => ?_,
    fun data pos hd hp => ?_, fun data pos hd hp hn => ?_⟩
  · obtain ⟨a, h1, h2⟩ := hok bytes hn
    obtain ⟨r', h3, h4⟩ := (hb fault).ok hr (h2 rest fault)
    exact ⟨a, r', h3, h1, h4⟩
  · rw [(hb none).result hr, hshort _ _ hn]; rfl
  · rw [(hb (some code)).result hr, hshort _ _ hn]; rfl
  · have hlen : ((data.drop pos).take n).length = n := by
      rw [List.length_take, List.length_drop]; omega
    obtain ⟨a, h1, h2⟩ := hok _ hlen
    refine ⟨a, ?_, h1⟩
    have hs := hc data (Cursor.mk data pos) (Flat.ofBytes (data.drop pos))
      ⟨rfl, by show pos ≤ data.length; omega, hd, rfl⟩
    have hf := h2 ((data.drop pos).drop n) none
    rw [List.take_append_drop] at hf
    unfold Flat.ofBytes at hs
    rw [hf] at hs
    show @m Cursor _ _ = _
    generalize hx : m (Cursor.mk data pos) = x at hs
    rcases x with ⟨v, data', pos'⟩
    rcases hs with ⟨h3, h4, h5, h6, h7⟩ | ⟨f, _, _, h3⟩
    · simp only at h3 h4 h5 h6 h7
      subst h3 h4
      have h8 := congrArg List.length (congrArg Flat.bytes h7)
      simp only [Flat.ofBytes, List.length_drop] at h8
      obtain rfl : pos' = pos + n := by omega
      rfl
    · exact absurd (h3 trivial) (by simp)
  · have hs := hc data (Cursor.mk data pos) (Flat.ofBytes (data.drop pos)) ⟨rfl, hp, hd, rfl⟩
    have hf := hshort (data.drop pos) none (by rw [List.length_drop]; omega)
    unfold Flat.ofBytes at hs
    rcases hs with ⟨h3, _⟩ | ⟨f, h1, _, h3⟩
    · rw [h3, hf]; rfl
    · rw [h1, ← h3 trivial, hf]; rfl

theorem short_bytes {n : Nat} {bytes : List U8} (h : bytes.length < n) (hn : n ≤ 4) :
    bytes = [] ∨ (1 < n ∧ ∃ a, bytes = [a]) ∨ (2 < n ∧ ∃ a b, bytes = [a, b]) ∨
      (3 < n ∧ ∃ a b c, bytes = [a, b, c]) := by
  match bytes, h with
  | [], _ => exact Or.inl rfl
  | [a], h => exact Or.inr (Or.inl ⟨h, a, rfl⟩)
  | [a, b], h => exact Or.inr (Or.inr (Or.inl ⟨h, a, b, rfl⟩))
  | [a, b, c], h => exact Or.inr (Or.inr (Or.inr ⟨h, a, b, c, rfl⟩))
  | a :: b :: c :: d :: l, h => simp only [List.length_cons] at h; omega

theorem C03_readU8 : ReadsExactly 1 readU8 (fun bytes b => bytes = [b]) := by
  refine readsExactly (fun fault => (simBufferedRd fault).readU8)
    (fun data => (simCursorRd data).readU8) (fun bytes h => ?_) (fun bytes fault h => ?_)
  · match bytes, h with
    | [a], _ => exact ⟨a, rfl, breads_readU8 a⟩
  · rcases short_bytes h (by decide) with rfl | ⟨h, _⟩ | ⟨h, _⟩ | ⟨h, _⟩
    · cases fault <;> rfl
    all_goals omega

/-- **C03.** -/
theorem C03_readBeU16 : ReadsExactly 2 readBeU16 (fun bytes v => v.toNat = beNat bytes) := by
  refine readsExactly (fun fault => (simBufferedRd fault).readBeU16)
    (fun data => (simCursorRd data).readBeU16) (fun bytes h => ?_) (fun bytes fault h => ?_)
  · match bytes, h with
    | [a, b], _ =>
      refine ⟨_, ?_, breads_readBeU16 a b⟩
      rw [beU16_toNat]
      simp [beNat, Nat.mul_comm]
  · rcases short_bytes h (by decide) with rfl | ⟨_, a, rfl⟩ | ⟨h, _⟩ | ⟨h, _⟩
    · cases fault <;> rfl
    · cases fault <;> rfl
    all_goals omega

/-- **C03.** -/
theorem C03_readBeU24 : ReadsExactly 3 readBeU24 (fun bytes v => v.toNat = beNat bytes) := by
  refine readsExactly (fun fault => (simBufferedRd fault).readBeU24)
    (fun data => (simCursorRd data).readBeU24) (fun bytes h => ?_) (fun bytes fault h => ?_)
  · match bytes, h with
    | [a, b, c], _ =>
      refine ⟨_, ?_, breads_readBeU24 a b c⟩
      rw [beU24_toNat]
      simp [beNat, Nat.mul_comm]
  · rcases short_bytes h (by decide) with rfl | ⟨_, a, rfl⟩ | ⟨_, a, b, rfl⟩ | ⟨h, _⟩
    · cases fault <;> rfl
    · cases fault <;> rfl
    · cases fault <;> rfl
    · omega

/-- **C03.** -/
theorem C03_readBeU32 : ReadsExactly 4 readBeU32 (fun bytes v => v.toNat = beNat bytes) := by
  refine readsExactly (fun fault => (simBufferedRd fault).readBeU32)
    (fun data => (simCursorRd data).readBeU32) (fun bytes h => ?_) (fun bytes fault h => ?_)
  · match bytes, h with
    | [a, b, c, d], _ =>
      refine ⟨_, ?_, breads_readBeU32 a b c d⟩
      rw [beU32_toNat]
      simp [beNat, Nat.mul_comm]
  · rcases short_bytes h (by decide) with rfl | ⟨_, a, rfl⟩ | ⟨_, a, b, rfl⟩ | ⟨_, a, b, c, rfl⟩ <;>
      cases fault <;> rfl

/-- **C03.** -/
theorem C03_readLeU32 : ReadsExactly 4 readLeU32 (fun bytes v => v.toNat = leNat bytes) := by
  refine readsExactly (fun fault => (simBufferedRd fault).readLeU32)
    (fun data => (simCursorRd data).readLeU32) (fun bytes h => ?_) (fun bytes fault h => ?_)
  · match bytes, h with
    | [a, b, c, d], _ =>
      refine ⟨_, ?_, breads_readLeU32 a b c d⟩
      rw [beU32_toNat]
      simp [leNat, beNat, Nat.mul_comm]
  · rcases short_bytes h (by decide) with rfl | ⟨_, a, rfl⟩ | ⟨_, a, b, rfl⟩ | ⟨_, a, b, c, rfl⟩ <;>
      cases fault <;> rfl

/-- **C03.** -/
theorem C03_readInto (n : Nat) (hn : n < 2 ^ 63) :
    ReadsExactly n (readInto n) (fun bytes buffer => buffer = bytes) := by
  refine readsExactly (m := readInto n) (fun fault => (simBuffered fault).readInto n hn)
    (fun data => (simCursor data).readInto n hn) (fun bytes h => ?_) (fun bytes fault h => ?_)
  · subst h
    exact ⟨bytes, rfl, breads_readInto bytes⟩
  · simp only [readInto, Flat.readInto]
    rw [if_neg (by omega)]

/-- **C03.** -/
theorem C03_skip (n : Nat) (hn : n < 2 ^ 32) : ReadsExactly n (skip n) (fun _ _ => True) := by
  refine readsExactly (m := skip n) (fun fault => (simBuffered fault).skip n hn)
    (fun data => (simCursor data).skip n hn) (fun bytes h => ?_) (fun bytes fault h => ?_)
  · subst h
    exact ⟨(), trivial, breads_skip bytes⟩
  · simp only [skip, Flat.skip]
    rw [if_neg (by omega)]

/-- A buffered reader in the middle of its buffer, with more chunks to come. -/
example : ({ inner := exampleSource, buf := List.replicate CAPACITY 0x55, pos := 5, numValid := 6 } :
    BufferedReader).Remaining ([0x55, 0x12] ++ [0x34, 0x56]) none :=
  ⟨List.length_replicate, by decide, by decide, [0x12, 0x34, 0x56], exampleSource_delivers, by
    rw [List.take_replicate, List.drop_replicate]
    decide⟩

end Claxon.Props
