import Verif.Model.Programs
import Verif.Props.Containers
import Verif.Props.ExamplesFile
import Verif.Props.Position

/-! # C88: the example programs `decode_simple` and `decode`, with several files -/

namespace Claxon.Props

open Claxon Spec ReadBytes Examples

variable {fuel : Nat} {files : FlacReader.Files} {wavName : String → String} {ioText : IoError → String}

/-! ## decode_simple -/

/-- The file called `name` is a stream as in C24, with the given streaminfo and frames. -/
def HoldsStream (fuel : Nat) (files : FlacReader.Files) (name : String) (info : StreamInfo) (es : List Encoded) : Prop :=
  ∃ src first more, files name = .ok src ∧ Complete (first :: more) ∧ first.block = .streamInfo info ∧
    (∀ b ∈ more, ¬ IsStreaminfo b) ∧ (commentsIn more).length ≤ 1 ∧ more.length < fuel ∧
    (Encoded.samples es).length < fuel ∧ es.length < fuel ∧
    src.Delivers (streamMarker ++ metadataBytes (first :: more) ++ Encoded.stream es) none

/-- The line that is printed about a file. -/
def simpleLine (ioText : IoError → String) (name : String) : Res Unit → String
  | .ok () => name ++ ": done\n"
  | .error (.err (.unsupported msg)) => name ++ ": error, unsupported: " ++ msg ++ "\n"
  | .error (.err (.formatError msg)) => name ++ ": error, invalid input: " ++ msg ++ "\n"
  | .error (.err (.ioError e)) => name ++ ": IO error: " ++ ioText e ++ "\n"
  | .error _ => name

/-- Whether the file can be decoded does not depend on the WAV file that was there before, and the WAV file does not,
either, unless it is not written at all. -/
theorem decodeSimple_state (name : String) (w w' : Option (Wav I32)) :
    (decodeSimple fuel files name w).1 = (decodeSimple fuel files name w').1 ∧
      ((decodeSimple fuel files name w).2 = (decodeSimple fuel files name w').2 ∨
        ∀ v, (decodeSimple fuel files name v).2 = v) := by
  unfold decodeSimple
  rcases h : FlacReader.open' fuel files name with f | reader
  · exact ⟨rfl, .inr fun _ => rfl⟩
  · exact ⟨rfl, .inl rfl⟩

/-- What a program has done after a file. -/
def _root_.Claxon.Examples.World.after {α : Type} (w : World α) (text wav : String) (f : Option (Wav α)) : World α :=
  ⟨w.printed ++ text, fun n => if n = wav then f else w.wavs n⟩

theorem simpleLine_err (name : String) (e : Error) :
    simpleLine ioText name (.error (.err e)) = name ++ simpleReport ioText (.error e) := by
  have h : ∀ a b c : String, name ++ a ++ b ++ c = name ++ (a ++ b ++ c) := fun a b c => by
    rw [String.append_assoc, String.append_assoc, String.append_assoc]
  cases e <;> exact h _ _ _

/-- What is printed and written before a file leads to what is printed and written after it. -/
theorem printed_twice {α : Type} (w : World α) (a b wav : String) (f : Option (Wav α)) (k : Dec (World α) Unit) :
    Dec.bind (print b) (fun _ => k) ⟨w.printed ++ a, fun n => if n = wav then f else w.wavs n⟩ =
      k (w.after (a ++ b) wav f) := by
  unfold Dec.bind print World.after
  simp only [String.append_assoc]

theorem simpleMain_cons (name : String) (args : List String) (w : World I32) :
    simpleMain fuel files wavName ioText (name :: args) w =
      let r := decodeSimple fuel files name (w.wavs (wavName name))
      let w' := w.after (simpleLine ioText name r.1) (wavName name) r.2
      match r.1 with
      | .ok () => simpleMain fuel files wavName ioText args w'
      | .error (.err _) => simpleMain fuel files wavName ioText args w'
      | .error f => (.error f, w') := by
  rw [simpleMain]
  show Dec.bind (print name) _ w = _
  unfold Dec.bind
  show Dec.bind (Dec.catchErr (onWav (wavName name) (decodeSimple fuel files name))) _
    ⟨w.printed ++ name, w.wavs⟩ = _
  unfold Dec.bind Dec.catchErr onWav Dec.zoom
  rcases h : decodeSimple fuel files name (w.wavs (wavName name)) with ⟨r, f⟩
  simp only
  rcases r with (e | _ | _ | _) | _
  · rw [simpleLine_err]
    exact printed_twice w name _ (wavName name) f _
  · rfl
  · rfl
  · rfl
  · exact printed_twice w name _ (wavName name) f _

/-- **C88.** `decode_simple` goes through all its arguments, whatever is wrong with some of the files, and prints a line
about each: that it is done, or the kind of the error and its message. The only other way to end is the overflow of C27,
for which a file must have `2 ^ 32 - 1` zero bits in a row. -/
theorem C88_simple (contents : String → List U8) (fault : String → Option Nat) : ∀ (args : List String),
    (∀ name ∈ args, (∀ src, files name = .ok src → src.Delivers (contents name) (fault name)) ∧
      20165 * (contents name).length < fuel) → ∀ w : World I32,
    ((simpleMain fuel files wavName ioText args w).1 = .ok () ∧
      (simpleMain fuel files wavName ioText args w).2.printed = w.printed ++
        String.join (args.map fun name => simpleLine ioText name (decodeSimple fuel files name none).1)) ∨
    (simpleMain fuel files wavName ioText args w).1 = .error (.panic .overflow) ∧
      ∃ name ∈ args, LongZeros (bytesToBits (contents name))
  | [], _, w => .inl ⟨rfl, by rw [List.map_nil, String.join_nil, String.append_empty]; rfl⟩
  | name :: args, h, w => by
    obtain ⟨h1, h2⟩ := h name (by simp)
    have ih := C88_simple contents fault args (fun n hn => h n (by simp [hn]))
    have hs := (decodeSimple_state (fuel := fuel) (files := files) name (w.wavs (wavName name)) none).1
    have hr := C69_simpleReturns h1 h2 (w.wavs (wavName name))
    rw [simpleMain_cons, List.map_cons, String.join_cons, ← hs]
    generalize decodeSimple fuel files name (w.wavs (wavName name)) = r at *
    obtain ⟨r, f⟩ := r
    rcases hr with (⟨_, rfl⟩ | ⟨e, rfl⟩) | ⟨rfl, hz⟩
    · rcases ih (w.after (simpleLine ioText name (.ok ())) (wavName name) f) with ⟨h3, h4⟩ | ⟨h3, n, h4, h5⟩
      · exact .inl ⟨h3, h4.trans String.append_assoc⟩
      · exact .inr ⟨h3, n, by simp [h4], h5⟩
    · rcases ih (w.after (simpleLine ioText name (.error (.err e))) (wavName name) f) with ⟨h3, h4⟩ | ⟨h3, n, h4, h5⟩
      · exact .inl ⟨h3, h4.trans String.append_assoc⟩
      · exact .inr ⟨h3, n, by simp [h4], h5⟩
    · exact .inr ⟨rfl, name, by simp, hz⟩

theorem simpleMain_append (ys : List String) : ∀ (xs : List String) (w : World I32),
    simpleMain fuel files wavName ioText (xs ++ ys) w =
      match simpleMain fuel files wavName ioText xs w with
      | (.ok (), w') => simpleMain fuel files wavName ioText ys w'
      | x => x
  | [], w => rfl
  | x :: xs, w => by
    rw [List.cons_append, simpleMain_cons, simpleMain_cons]
    have ih := simpleMain_append ys xs
    generalize decodeSimple fuel files x (w.wavs (wavName x)) = r
    obtain ⟨(e | _ | _ | _) | _, f⟩ := r <;> first | exact ih _ | rfl

/-- **C88.** No other WAV files are touched than those that belong to the arguments. -/
theorem C88_simpleOthers {name : String} : ∀ {args : List String}, (∀ a ∈ args, wavName a ≠ name) →
    ∀ w : World I32, (simpleMain fuel files wavName ioText args w).2.wavs name = w.wavs name
  | [], _, _ => rfl
  | a :: args, h, w => by
    have ih := C88_simpleOthers (args := args) (fun b hb => h b (by simp [hb]))
    have ha : ∀ t f, (w.after t (wavName a) f).wavs name = w.wavs name := fun t f =>
      if_neg fun he => h a (by simp) he.symm
    rw [simpleMain_cons]
    generalize decodeSimple fuel files a (w.wavs (wavName a)) = r
    obtain ⟨(e | _ | _ | _) | _, f⟩ := r
    · exact (ih _).trans (ha _ _)
    · exact ha _ _
    · exact ha _ _
    · exact ha _ _
    · exact (ih _).trans (ha _ _)

/-- **C88.** The WAV file of an argument is the one that is written if the program is given this argument alone, whatever
the other arguments are, if none of those that follow belongs to the same WAV file. -/
theorem C88_alone {before after : List String} {name : String} {reader : FlacReader BufferedReader}
    (hopen : FlacReader.open' fuel files name = .ok reader) (hafter : ∀ a ∈ after, wavName a ≠ wavName name)
    {w : World I32} (h : (simpleMain fuel files wavName ioText (before ++ name :: after) w).1 = .ok ())
    (v : World I32) :
    (simpleMain fuel files wavName ioText (before ++ name :: after) w).2.wavs (wavName name) =
      (simpleMain fuel files wavName ioText [name] v).2.wavs (wavName name) := by
  rw [simpleMain_append] at h ⊢
  generalize simpleMain fuel files wavName ioText before w = x at h ⊢
  obtain ⟨f | _, w'⟩ := x
  · cases h
  · change (simpleMain fuel files wavName ioText (name :: after) w').1 = _ at h
    show (simpleMain fuel files wavName ioText (name :: after) w').2.wavs _ = _
    have hs : decodeSimple fuel files name (w'.wavs (wavName name)) =
        decodeSimple fuel files name (v.wavs (wavName name)) := by
      unfold decodeSimple
      rw [hopen]
      rfl
    have hw : ∀ (u : World I32) t f, (u.after t (wavName name) f).wavs (wavName name) = f := fun u t f => if_pos rfl
    rw [simpleMain_cons] at h ⊢
    rw [simpleMain_cons, ← hs]
    generalize decodeSimple fuel files name (w'.wavs (wavName name)) = r at h
    obtain ⟨(e | _ | _ | _) | _, f⟩ := r
    · exact (C88_simpleOthers hafter _).trans ((hw _ _ _).trans (hw _ _ _).symm)
    · cases h
    · cases h
    · cases h
    · exact (C88_simpleOthers hafter _).trans ((hw _ _ _).trans (hw _ _ _).symm)

/-- **C88.** So a file with a stream as in C24 is decoded to its samples, whatever the other arguments are. -/
theorem C88_simpleWav {before after : List String} {name : String} {info : StreamInfo} {es : List Encoded}
    (hs : HoldsStream fuel files name info es) (hafter : ∀ a ∈ after, wavName a ≠ wavName name)
    {w : World I32} (h : (simpleMain fuel files wavName ioText (before ++ name :: after) w).1 = .ok ()) :
    ∃ samples : List I32, (simpleMain fuel files wavName ioText (before ++ name :: after) w).2.wavs (wavName name) =
        some ⟨info.channels, info.sampleRate, info.bitsPerSample, samples⟩ ∧
      samples.map BitVec.toInt = Encoded.samples es := by
  obtain ⟨src, first, more, hfile, hc, h1, h2, h3, hf, hf', -, hd⟩ := hs
  obtain ⟨samples, h4, h5⟩ := C69_simple es hc h1 h2 h3 hf hf' hfile hd (w.wavs (wavName name))
  have hopen : ∃ reader, FlacReader.open' fuel files name = .ok reader := by
    rcases ho : FlacReader.open' fuel files name with f | reader
    · unfold decodeSimple at h4
      rw [ho] at h4
      cases h4
    · exact ⟨reader, rfl⟩
  obtain ⟨reader, hopen⟩ := hopen
  refine ⟨samples, ?_, h5⟩
  rw [C88_alone hopen hafter h w, simpleMain_cons, h4]
  exact if_pos rfl

/-! ## decode -/

theorem decode_state (name : String) (w w' : Option (Wav (BitVec 16))) :
    (Examples.decode fuel files name w).1 = (Examples.decode fuel files name w').1 := by
  unfold Examples.decode
  rcases h : expect (FlacReader.open' fuel files name) with f | reader
  · rfl
  · simp only [Dec.bind_liftM_of rfl]
    split
    · rfl
    · split <;> rfl

theorem decodeArgs_cons (name : String) (args : List String) (w : World (BitVec 16)) :
    decodeArgs fuel files wavName (name :: args) w =
      let r := Examples.decode fuel files name (w.wavs (wavName name))
      match r.1 with
      | .ok () => decodeArgs fuel files wavName args (w.after (name ++ ": done\n") (wavName name) r.2)
      | .error f => (.error f, w.after name (wavName name) r.2) := by
  rw [decodeArgs]
  show Dec.bind (print name) _ w = _
  unfold Dec.bind
  show Dec.bind (onWav (wavName name) (Examples.decode fuel files name)) _ ⟨w.printed ++ name, w.wavs⟩ = _
  unfold Dec.bind onWav Dec.zoom
  rcases h : Examples.decode fuel files name (w.wavs (wavName name)) with ⟨r, f⟩
  simp only
  rcases r with f | _
  · rfl
  · exact printed_twice w name _ (wavName name) f _

theorem decodeArgs_append (ys : List String) : ∀ (xs : List String) (w : World (BitVec 16)),
    decodeArgs fuel files wavName (xs ++ ys) w =
      match decodeArgs fuel files wavName xs w with
      | (.ok (), w') => decodeArgs fuel files wavName ys w'
      | x => x
  | [], w => rfl
  | x :: xs, w => by
    rw [List.cons_append, decodeArgs_cons, decodeArgs_cons]
    have ih := decodeArgs_append ys xs
    generalize Examples.decode fuel files x (w.wavs (wavName x)) = r
    obtain ⟨e | _, f⟩ := r
    · rfl
    · exact ih _

theorem decodeArgs_others {name : String} : ∀ {args : List String}, (∀ a ∈ args, wavName a ≠ name) →
    ∀ w : World (BitVec 16), (decodeArgs fuel files wavName args w).2.wavs name = w.wavs name
  | [], _, _ => rfl
  | a :: args, h, w => by
    have ih := decodeArgs_others (args := args) (fun b hb => h b (by simp [hb]))
    have ha : ∀ t f, (w.after t (wavName a) f).wavs name = w.wavs name := fun t f =>
      if_neg fun he => h a (by simp) he.symm
    rw [decodeArgs_cons]
    generalize Examples.decode fuel files a (w.wavs (wavName a)) = r
    obtain ⟨e | _, f⟩ := r
    · exact ha _ _
    · exact (ih _).trans (ha _ _)

/-- A file for `decode`: a stream as in C24, of two channels and 16 bits. -/
def HoldsStereo (fuel : Nat) (files : FlacReader.Files) (name : String) (info : StreamInfo) (es : List Encoded) : Prop :=
  HoldsStream fuel files name info es ∧ info.channels = 2 ∧ info.bitsPerSample = 16 ∧
    ∀ e ∈ es, e.channels.length = 2 ∧ e.bps = 16

theorem HoldsStereo.decode {name : String} {info : StreamInfo} {es : List Encoded}
    (h : HoldsStereo fuel files name info es) (w : Option (Wav (BitVec 16))) : ∃ samples : List (BitVec 16),
      Examples.decode fuel files name w = (.ok (), some ⟨2, info.sampleRate, 16, samples⟩) ∧
      samples.map BitVec.toInt = Encoded.samples es := by
  obtain ⟨⟨src, first, more, hfile, hc, h1, h2, h3, hf, -, hf', hd⟩, hch, hbps, hes⟩ := h
  exact C69_decode es hc h1 h2 h3 hf hf' hch hbps hes hfile hd w

theorem decodeArgs_ok : ∀ {args : List String}, (∀ name ∈ args, ∃ info es, HoldsStereo fuel files name info es) →
    ∀ w : World (BitVec 16), (decodeArgs fuel files wavName args w).1 = .ok () ∧
      (decodeArgs fuel files wavName args w).2.printed = w.printed ++
        String.join (args.map fun name => name ++ ": done\n")
  | [], _, w => ⟨rfl, by rw [List.map_nil, String.join_nil, String.append_empty]; rfl⟩
  | name :: args, h, w => by
    obtain ⟨info, es, h1⟩ := h name (by simp)
    obtain ⟨samples, h2, -⟩ := h1.decode (w.wavs (wavName name))
    rw [decodeArgs_cons, h2, List.map_cons, String.join_cons]
    obtain ⟨h3, h4⟩ := decodeArgs_ok (args := args) (fun n hn => h n (by simp [hn]))
      (w.after (name ++ ": done\n") (wavName name) (some ⟨2, info.sampleRate, 16, samples⟩))
    exact ⟨h3, h4.trans String.append_assoc⟩

/-- **C88.** If all files are streams of two channels and 16 bits, `decode` goes through all of them, and says of each that
it is done. Without arguments it says that there is nothing to do. -/
theorem C88_decode {args : List String} (h : ∀ name ∈ args, ∃ info es, HoldsStereo fuel files name info es)
    (w : World (BitVec 16)) :
    (decodeMain fuel files wavName args w).1 = .ok () ∧
      (decodeMain fuel files wavName args w).2.printed = w.printed ++
        (if args = [] then "no files to decode\n" else String.join (args.map fun name => name ++ ": done\n")) := by
  obtain ⟨h1, h2⟩ := decodeArgs_ok (wavName := wavName) h w
  rcases args with - | ⟨name, args⟩
  · exact ⟨rfl, rfl⟩
  · unfold decodeMain
    rcases h3 : decodeArgs fuel files wavName (name :: args) w with ⟨r, w'⟩
    rw [h3] at h1 h2
    obtain rfl : r = .ok () := h1
    rw [Dec.bind_ok _ h3, if_neg (List.cons_ne_nil _ _), if_neg (List.cons_ne_nil _ _)]
    exact ⟨rfl, h2⟩

/-- **C88.** The WAV file of each argument then has its samples, if none of the arguments that follow belongs to the same
WAV file. -/
theorem C88_decodeWav {before after : List String} {name : String} {info : StreamInfo} {es : List Encoded}
    (hs : HoldsStereo fuel files name info es) (hafter : ∀ a ∈ after, wavName a ≠ wavName name)
    {w : World (BitVec 16)} (h : (decodeMain fuel files wavName (before ++ name :: after) w).1 = .ok ()) :
    ∃ samples : List (BitVec 16),
      (decodeMain fuel files wavName (before ++ name :: after) w).2.wavs (wavName name) =
        some ⟨2, info.sampleRate, 16, samples⟩ ∧ samples.map BitVec.toInt = Encoded.samples es := by
  have hne : before ++ name :: after ≠ [] := by simp
  have hm : decodeMain fuel files wavName (before ++ name :: after) w =
      decodeArgs fuel files wavName (before ++ name :: after) w := by
    unfold decodeMain
    rw [if_neg hne]
    rcases h3 : decodeArgs fuel files wavName (before ++ name :: after) w with ⟨f | _, w'⟩
    · exact Dec.bind_error _ h3
    · rw [Dec.bind_ok _ h3]
      rfl
  rw [hm, decodeArgs_append] at h ⊢
  generalize decodeArgs fuel files wavName before w = x at h ⊢
  obtain ⟨f | _, w'⟩ := x
  · cases h
  · obtain ⟨samples, h2, h3⟩ := hs.decode (w'.wavs (wavName name))
    refine ⟨samples, ?_, h3⟩
    show (decodeArgs fuel files wavName (name :: after) w').2.wavs _ = _
    rw [decodeArgs_cons, h2]
    exact (decodeArgs_others hafter _).trans (if_pos rfl)

/-- **C88.** No other WAV files are touched than those that belong to the arguments. -/
theorem C88_decodeOthers {args : List String} {name : String} (h : ∀ a ∈ args, wavName a ≠ name)
    (w : World (BitVec 16)) : (decodeMain fuel files wavName args w).2.wavs name = w.wavs name := by
  have h1 := decodeArgs_others (fuel := fuel) (files := files) h w
  unfold decodeMain
  rcases h3 : decodeArgs fuel files wavName args w with ⟨f | _, w'⟩
  · rw [Dec.bind_error _ h3]
    rwa [h3] at h1
  · rw [Dec.bind_ok _ h3]
    rw [h3] at h1
    split <;> exact h1

/-- **C88.** At the first file that `decode` cannot handle it ends, in the way it does if it is given this file alone. All
files before have been decoded; of this one only the name has been printed, and the WAV files of those that follow have
not been touched. -/
theorem C88_decodeStops {good others : List String} {bad : String} {f : Fail}
    (h : ∀ name ∈ good, ∃ info es, HoldsStereo fuel files name info es)
    (hb : (Examples.decode fuel files bad none).1 = .error f) (w : World (BitVec 16)) :
    (decodeMain fuel files wavName (good ++ bad :: others) w).1 = .error f ∧
      (decodeMain fuel files wavName (good ++ bad :: others) w).2.printed =
        w.printed ++ String.join (good.map fun name => name ++ ": done\n") ++ bad ∧
      ∀ n, n ≠ wavName bad → (decodeMain fuel files wavName (good ++ bad :: others) w).2.wavs n =
        (decodeMain fuel files wavName good w).2.wavs n := by
  obtain ⟨h1, h2⟩ := decodeArgs_ok (wavName := wavName) h w
  rcases h3 : decodeArgs fuel files wavName good w with ⟨r, w'⟩
  rw [h3] at h1 h2
  obtain rfl : r = .ok () := h1
  have hb' := (decode_state bad (w'.wavs (wavName bad)) none).trans hb
  rcases h4 : Examples.decode fuel files bad (w'.wavs (wavName bad)) with ⟨r, g⟩
  rw [h4] at hb'
  obtain rfl : r = .error f := hb'
  have h5 : decodeArgs fuel files wavName (good ++ bad :: others) w = (.error f, w'.after bad (wavName bad) g) := by
    rw [decodeArgs_append, h3]
    show decodeArgs fuel files wavName (bad :: others) w' = _
    rw [decodeArgs_cons, h4]
  have h6 : decodeMain fuel files wavName (good ++ bad :: others) w = (.error f, w'.after bad (wavName bad) g) :=
    Dec.bind_error _ h5
  have h7 : (decodeMain fuel files wavName good w).2.wavs = w'.wavs := by
    unfold decodeMain
    rw [Dec.bind_ok _ h3]
    split <;> rfl
  rw [h6]
  refine ⟨rfl, ?_, fun n hn => (if_neg hn).trans (by rw [h7])⟩
  show w'.printed ++ bad = _
  rw [h2]

/-! ## decode_ogg and decode_mp4 -/

section
variable {decodeFile : String → Dec (Option (Wav I32)) Unit}

theorem containerMain_cons (name : String) (args : List String) (w : World I32) :
    containerMain decodeFile wavName (name :: args) w =
      let r := decodeFile name (w.wavs (wavName name))
      match r.1 with
      | .ok () => containerMain decodeFile wavName args (w.after "" (wavName name) r.2)
      | .error f => (.error f, w.after "" (wavName name) r.2) := by
  rw [containerMain]
  show Dec.bind (onWav (wavName name) (decodeFile name)) _ w = _
  unfold Dec.bind onWav Dec.zoom World.after
  rcases h : decodeFile name (w.wavs (wavName name)) with ⟨f | _, f'⟩ <;> simp only [String.append_empty]

/-- **C88.** No other WAV files are touched than those that belong to the arguments. -/
theorem C88_containersOthers {name : String} : ∀ {args : List String}, (∀ a ∈ args, wavName a ≠ name) →
    ∀ w : World I32, (containerMain decodeFile wavName args w).2.wavs name = w.wavs name
  | [], _, _ => rfl
  | a :: args, h, w => by
    have ih := C88_containersOthers (args := args) (fun b hb => h b (by simp [hb]))
    have ha : ∀ f, (w.after "" (wavName a) f).wavs name = w.wavs name := fun f =>
      if_neg fun he => h a (by simp) he.symm
    rw [containerMain_cons]
    generalize decodeFile a (w.wavs (wavName a)) = r
    obtain ⟨e | _, f⟩ := r
    · exact ha _
    · exact (ih _).trans (ha _)

/-- **C88.** `decode_ogg` and `decode_mp4` decode one file after the other: if each of the files is decoded, as in C71, to
a WAV file, whatever was there before, then the WAV file of each argument is there at the end, if none of the arguments
that follow belongs to the same WAV file. -/
theorem C88_containers {out : String → Wav I32} : ∀ {args : List String},
    (∀ name ∈ args, ∀ f, decodeFile name f = (.ok (), some (out name))) → ∀ w : World I32,
    (containerMain decodeFile wavName args w).1 = .ok () ∧
      ∀ before name after, args = before ++ name :: after → (∀ a ∈ after, wavName a ≠ wavName name) →
        (containerMain decodeFile wavName args w).2.wavs (wavName name) = some (out name)
  | [], _, _ => ⟨rfl, fun before name after he => absurd he.symm (by simp)⟩
  | name :: args, h, w => by
    rw [containerMain_cons, h name (by simp)]
    obtain ⟨h1, h2⟩ := C88_containers (args := args) (fun n hn => h n (by simp [hn]))
      (w.after "" (wavName name) (some (out name)))
    refine ⟨h1, fun before n after he hafter => ?_⟩
    rcases before with - | ⟨b, before⟩
    · obtain ⟨rfl, rfl⟩ : name = n ∧ args = after := by simpa using he
      exact (C88_containersOthers hafter _).trans (if_pos rfl)
    · obtain ⟨rfl, rfl⟩ : name = b ∧ args = before ++ n :: after := by simpa using he
      exact h2 before n after rfl hafter

/-- **C88.** At the first file that cannot be decoded they end, with the WAV files of the files before. -/
theorem C88_containersStop {out : String → Wav I32} {others : List String} {bad : String} {fail : Fail}
    (hb : ∀ f, (decodeFile bad f).1 = .error fail) : ∀ {good : List String},
    (∀ name ∈ good, ∀ f, decodeFile name f = (.ok (), some (out name))) → ∀ w : World I32,
    (containerMain decodeFile wavName (good ++ bad :: others) w).1 = .error fail ∧
      ∀ n, n ≠ wavName bad → (containerMain decodeFile wavName (good ++ bad :: others) w).2.wavs n =
        (containerMain decodeFile wavName good w).2.wavs n
  | [], _, w => by
    have hb' := hb (w.wavs (wavName bad))
    rw [List.nil_append, containerMain_cons]
    generalize decodeFile bad (w.wavs (wavName bad)) = r at hb'
    obtain ⟨r, f⟩ := r
    obtain rfl : r = .error fail := hb'
    exact ⟨rfl, fun n hn => if_neg hn⟩
  | name :: good, h, w => by
    rw [List.cons_append, containerMain_cons, containerMain_cons, h name (by simp)]
    exact C88_containersStop (good := good) hb (fun n hn => h n (by simp [hn])) _

end

/-! ## Examples -/

/-- A directory with a stream in `a.flac`, and a file in `b.flac` that is broken in its second frame. There are no other
files. -/
def programFiles : FlacReader.Files := fun name =>
  if name = "a.flac" then .ok (bytewise (streamMarker ++ metadataBytes [infoBlock false, paddingBlock false,
    commentBlock true] ++ Encoded.stream [exampleEncoded, exampleEncoded]))
  else if name = "b.flac" then .ok (bytewise brokenFile)
  else .error (.inner 2)

theorem programFiles_a : HoldsStereo 17 programFiles "a.flac" exampleInfo [exampleEncoded, exampleEncoded] :=
  ⟨⟨_, infoBlock false, [paddingBlock false, commentBlock true], rfl, exampleComplete, rfl, exampleMetadata.onlyOne,
    by decide, by decide, by decide +kernel, by decide, bytewise_delivers _⟩, by decide, by decide, by decide⟩

/-- The WAV file that belongs to a file. -/
def wavOf (name : String) : String := name ++ ".wav"

example : HoldsStream 17 programFiles "a.flac" exampleInfo [exampleEncoded, exampleEncoded] ∧
    ∀ a ∈ ["b.flac", "c.flac"], wavOf a ≠ wavOf "a.flac" := ⟨programFiles_a.1, by decide +kernel⟩

/-- `decode_simple` with all three files. -/
example : (simpleMain 17 programFiles wavOf (fun _ => "no such file") ["c.flac", "a.flac", "b.flac"] ⟨"", fun _ => none⟩).1
      = .ok () ∧
    (simpleMain 17 programFiles wavOf (fun _ => "no such file") ["c.flac", "a.flac", "b.flac"]
      ⟨"", fun _ => none⟩).2.printed =
    "c.flac: IO error: no such file\na.flac: done\nb.flac: error, invalid input: frame sync code missing\n" := by
  decide +kernel

/-- `decode` with a broken second file: the third is not decoded. -/
example : (decodeMain 17 programFiles wavOf ["a.flac", "b.flac", "a.flac"] ⟨"", fun _ => none⟩).1 =
      .error (.panic .explicit) ∧
    (decodeMain 17 programFiles wavOf ["a.flac", "b.flac", "a.flac"] ⟨"", fun _ => none⟩).2.printed =
      "a.flac: done\nb.flac" := by
  decide +kernel

/-- `decode_ogg` with two files of two frames each. -/
example (decodeFile : String → Dec (Option (Wav I32)) Unit)
    (h : ∀ name, decodeFile name = decodeOgg [oggFirst (List.replicate 7 1#8) 0 streamMarker (infoBlock false),
      exampleFrame.bytes 16, exampleFrame.bytes 16]) (w : World I32) :
    ∃ samples, (containerMain decodeFile wavOf ["a", "b"] w).2.wavs (wavOf "a") =
      some ⟨2, 44100, 16, samples⟩ ∧ samples.map BitVec.toInt = Encoded.samples [exampleEncoded, exampleEncoded] := by
  have hf : ∀ f, ∃ samples, decodeOgg [oggFirst (List.replicate 7 1#8) 0 streamMarker (infoBlock false),
        exampleFrame.bytes 16, exampleFrame.bytes 16] f = (.ok (), some ⟨2, 44100, 16, samples⟩) ∧
      samples.map BitVec.toInt = Encoded.samples [exampleEncoded, exampleEncoded] := fun f =>
    C71_ogg (magic := List.replicate 7 1#8) (signature := streamMarker) (first := infoBlock false)
      (info := exampleInfo) (rest := []) (more := []) (by decide) (by decide) rfl (by decide)
      (.frame exampleEncoded (.frame exampleEncoded .nil)) (by decide) (by rw [List.append_nil]; rfl) (by decide +kernel) f
  obtain ⟨samples, h1, h2⟩ := hf none
  have h3 : ∀ name f, decodeFile name f = (.ok (), some ⟨2, 44100, 16, samples⟩) := by
    intro name f
    rw [h, ← h1]
    obtain ⟨samples', h4, h5⟩ := hf f
    rw [h1, h4]
    have : samples' = samples := by
      apply List.map_injective_iff.2 (fun a b h => BitVec.eq_of_toInt_eq h)
      rw [h5, h2]
    rw [this]
  exact ⟨samples, (C88_containers (out := fun _ => ⟨2, 44100, 16, samples⟩) (fun name _ => h3 name) w).2 [] "a" ["b"] rfl
    (by decide +kernel), h2⟩

end Claxon.Props
