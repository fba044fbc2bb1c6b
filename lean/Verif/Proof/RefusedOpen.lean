import Verif.Proof.RefusedMetadata
import Verif.Proof.Open

/-! Errors of opening a stream, and their reasons. -/

namespace Claxon

open Spec ReadBytes

/-- The last of the reasons why opening a stream fails, when the blocks `more` have been read before. -/
inductive RefusedNext (more : List EncodedBlock) : List U8 → Error → Prop where
  | block (bytes : List U8) (e : Error) (hb : RefusedBlock bytes e) : RefusedNext more bytes e
  | streaminfo (b : EncodedBlock) (hb : IsStreaminfo b) :
      RefusedNext more b.bytes (.formatError "encountered second streaminfo block")
  | comment (b : EncodedBlock) (vc : VorbisComment) (hb : b.block = .vorbisComment vc) (h1 : commentsIn more ≠ []) :
      RefusedNext more b.bytes (.formatError "encountered second Vorbis comment block")

theorem refused_next {o : FlacReaderOptions} {first : EncodedBlock} {more : List EncodedBlock} {bytes : List U8}
    {e : Error} (hc : Continues o first more) (h : RefusedNext more bytes e) :
    RefusedStream o (streamMarker ++ metadataBytes (first :: more) ++ bytes) e := by
  cases h with
  | block bytes e hb => exact .block first more hc bytes e hb
  | streaminfo b hb => exact .streaminfo first more hc b hb
  | comment b vc hb h1 => exact .comment first more hc b vc hb h1

theorem Before.continues {o : FlacReaderOptions} {first : EncodedBlock} {pre : List EncodedBlock}
    {opts : FlacReaderOptions} {vc : Option VorbisComment} (h : Before o first pre opts vc false)
    (hf : IsStreaminfo first) : Continues o first pre := by
  refine ⟨hf, h.other, h.comments, fun fewer hp => ?_⟩
  by_cases he : fewer = pre
  · subst he; exact h.not_enough
  · exact h.necessary fewer hp he

/-! ### The marker -/

theorem brefuses_marker (o : FlacReaderOptions) : BRefuses readStreamHeader (fun u e => RefusedStream o u e) := by
  unfold readStreamHeader
  refine .bind (lim := .never) brefuses_readBeU32 btriple_readBeU32 ?_
  rintro _ _ ⟨a, b, c, d, rfl, rfl⟩
  refine .ite (fun h => .ite (fun h3 => .fail ?_) fun h3 => .fail ?_) fun _ => .pure _
  · obtain ⟨rfl, rfl, rfl⟩ := (id3_iff a b c d).1 h3
    exact .id3 d
  · refine .marker [a, b, c, d] rfl (fun hm => h ((marker_iff a b c d).2 hm)) fun hm => h3 ((id3_iff a b c d).2 ?_)
    simpa using hm

/-! ### The loop -/

theorem brefuses_openLoop (o : FlacReaderOptions) (first : EncodedBlock) (hfirst : IsStreaminfo first) (fuel : Nat) :
    ∀ (pre : List EncodedBlock) (opts : FlacReaderOptions) (vc : Option VorbisComment) (done : Bool),
    Before o first pre opts vc done →
    BRefuses (openLoop fuel opts vc done) (fun u e => ∃ bs bytes, u = metadataBytes bs ++ bytes ∧
      Continues o first (pre ++ bs) ∧ RefusedNext (pre ++ bs) bytes e) := by
  induction fuel with
  | zero => intro pre opts vc done _ s e s' h; cases h
  | succ fuel ih =>
    intro pre opts vc done h
    rw [openLoop_succ]
    cases done with
    | true => exact .pure _
    | false =>
      rw [if_neg (by simp)]
      refine .bind (lim := .never) (brefuses_block.mono ?_) btriple_block ?_
      · intro u e hb
        exact ⟨[], u, rfl, by rw [List.append_nil]; exact h.continues hfirst, .block _ _ hb⟩
      · rintro _ _ ⟨b, rfl, rfl⟩
        have hrec : ∀ (opts : FlacReaderOptions) (vc : Option VorbisComment),
            Before o first (pre ++ [b]) opts vc b.isLast →
            BRefuses (openLoop fuel opts vc b.isLast)
              (fun v e => ∃ bs bytes, b.bytes ++ v = metadataBytes bs ++ bytes ∧
                Continues o first (pre ++ bs) ∧ RefusedNext (pre ++ bs) bytes e) := by
          intro opts vc hb
          refine (ih _ _ _ _ hb).mono ?_
          rintro _ e ⟨bs, bytes, rfl, h1, h2⟩
          rw [List.append_assoc, List.singleton_append] at h1 h2
          exact ⟨b :: bs, bytes, by rw [metadataBytes_cons, List.append_assoc], h1, h2⟩
        have hother : ¬ IsStreaminfo b → (∀ c, b.block ≠ .vorbisComment c) →
            BRefuses (if !opts.hasDesiredBlocks then pure vc else openLoop fuel opts vc b.isLast)
              (fun v e => ∃ bs bytes, b.bytes ++ v = metadataBytes bs ++ bytes ∧
                Continues o first (pre ++ bs) ∧ RefusedNext (pre ++ bs) bytes e) := by
          intro hns hnc
          obtain ⟨h1, h2, h3⟩ := h.other_next hns hnc
          exact .ite (fun hd => .pure _) fun hd => hrec _ _ (h3 (by simpa using hd))
        have hfail : ∀ e, RefusedNext pre b.bytes e → ∃ bs bytes, b.bytes ++ [] = metadataBytes bs ++ bytes ∧
                Continues o first (pre ++ bs) ∧ RefusedNext (pre ++ bs) bytes e := by
          intro e he
          refine ⟨[], b.bytes, by rw [List.append_nil]; rfl, ?_, ?_⟩ <;> rw [List.append_nil]
          · exact h.continues hfirst
          · exact he
        simp only
        rcases hblock : b.block with i | n | ⟨id, data⟩ | sp | c | _ | _ | _
        · exact .fail (hfail _ (.streaminfo b ⟨i, hblock⟩))
        · exact hother (by rintro ⟨i, hi⟩; rw [hblock] at hi; cases hi)
            (by intro c hc; rw [hblock] at hc; cases hc)
        · exact hother (by rintro ⟨i, hi⟩; rw [hblock] at hi; cases hi)
            (by intro c hc; rw [hblock] at hc; cases hc)
        · exact hother (by rintro ⟨i, hi⟩; rw [hblock] at hi; cases hi)
            (by intro c hc; rw [hblock] at hc; cases hc)
        · refine .ite (fun hvc => .fail (hfail _ (.comment b c hblock ?_))) fun hvc => ?_
          · intro hn
            rw [h.vc, hn] at hvc
            cases hvc
          obtain ⟨h1, h2, h3⟩ := h.comment_next hblock (by simpa using hvc)
          exact .ite (fun hd => .pure _) fun hd => hrec _ _ (h3 (by simpa using hd))
        all_goals
          exact hother (by rintro ⟨i, hi⟩; rw [hblock] at hi; cases hi)
            (by intro c hc; rw [hblock] at hc; cases hc)

theorem bfails_loop (o : FlacReaderOptions) (first : EncodedBlock) (fuel : Nat) :
    ∀ (pre bs : List EncodedBlock) (opts : FlacReaderOptions) (vc : Option VorbisComment) (done : Bool)
      (bytes : List U8) (e : Error),
    Before o first pre opts vc done → Continues o first (pre ++ bs) → RefusedNext (pre ++ bs) bytes e →
    bs.length < fuel → BFails (openLoop fuel opts vc done) (metadataBytes bs ++ bytes) (.err e) := by
  induction fuel with
  | zero => intro _ _ _ _ _ _ _ _ _ _ h; omega
  | succ fuel ih =>
    intro pre bs opts vc done bytes e h hend hr hl
    rw [openLoop_succ]
    have hne := hend.necessary pre (List.prefix_append _ _)
    have hd : done = false := by
      cases hdone : done
      · rfl
      · exact absurd (.inl (by rw [← h.done, hdone])) hne
    subst hd
    rw [if_neg (by simp)]
    rcases bs with _ | ⟨b, bs⟩
    · rw [List.append_nil] at hr
      show BFails _ bytes _
      cases hr with
      | block bytes e hb => exact .bind_left _ (bfails_block hb)
      | streaminfo b hb =>
        obtain ⟨i, hi⟩ := hb
        rw [← List.append_nil b.bytes]
        refine .bind (breads_block b) ?_
        rw [hi]
        exact .fail _
      | comment b c hb h1 =>
        rw [← List.append_nil b.bytes]
        refine .bind (breads_block b) ?_
        rw [hb]
        unfold afterBlockRead
        simp only
        rw [if_pos]
        · exact .fail _
        · rw [h.vc]
          rcases hc : commentsIn pre with _ | ⟨x, xs⟩
          · exact absurd hc h1
          · rfl
    · rw [metadataBytes_cons, List.append_assoc]
      refine .bind (breads_block b) ?_
      have hns : ¬ IsStreaminfo b := hend.onlyOne b (by simp)
      have happ : pre ++ b :: bs = (pre ++ [b]) ++ bs := by simp
      rw [happ] at hend hr
      have hrec : ∀ (opts : FlacReaderOptions) (vc : Option VorbisComment),
          Before o first (pre ++ [b]) opts vc b.isLast →
          BFails (openLoop fuel opts vc b.isLast) (metadataBytes bs ++ bytes) (.err e) := fun opts vc hb =>
        ih _ _ _ _ _ _ _ hb hend hr (by rw [List.length_cons] at hl; omega)
      have hstop : ¬ AtEnd o first (pre ++ [b]) := fun h1 =>
        hend.necessary _ (List.prefix_append _ _) h1.enough
      have hother : (∀ c, b.block ≠ .vorbisComment c) →
          BFails (if !opts.hasDesiredBlocks then pure vc else openLoop fuel opts vc b.isLast)
            (metadataBytes bs ++ bytes) (.err e) := by
        intro hnc
        obtain ⟨h1, h2, h3⟩ := h.other_next hns hnc
        by_cases hd : (!opts.hasDesiredBlocks) = true
        · exact absurd (h2 hd) hstop
        · rw [if_neg hd]
          exact hrec _ _ (h3 (by simpa using hd))
      simp only
      rcases hblock : b.block with i | n | ⟨id, data⟩ | sp | c | _ | _ | _
      · exact absurd ⟨i, hblock⟩ hns
      · exact hother (by intro c hc; rw [hblock] at hc; cases hc)
      · exact hother (by intro c hc; rw [hblock] at hc; cases hc)
      · exact hother (by intro c hc; rw [hblock] at hc; cases hc)
      · have hvc : vc.isSome = false := by
          have hcm := hend.comments
          rw [commentsIn_append, commentsIn_append, commentsIn_comment hblock] at hcm
          simp at hcm
          have : commentsIn pre = [] := List.length_eq_zero_iff.1 (by omega)
          rw [h.vc, this]; rfl
        obtain ⟨h1, h2, h3⟩ := h.comment_next hblock hvc
        unfold afterBlockRead
        simp only [hvc]
        rw [if_neg (by simp)]
        by_cases hd : (!{ opts with readVorbisComment := false }.hasDesiredBlocks) = true
        · exact absurd (h2 hd) hstop
        · rw [if_neg hd]
          exact hrec _ _ (h3 (by simpa using hd))
      all_goals exact hother (by intro c hc; rw [hblock] at hc; cases hc)

/-! ### Opening -/

theorem brefuses_open (fuel : Nat) (o : FlacReaderOptions) :
    BRefuses (openStream fuel o) (fun u e => RefusedStream o u e) := by
  rw [openStream_eq, openFlat_eq]
  refine .bind (lim := .never) (brefuses_marker o) btriple_marker ?_
  rintro _ _ rfl
  refine .bind (lim := .never) (brefuses_block.mono fun u e h => .first u e h) btriple_block ?_
  rintro _ _ ⟨b, rfl, rfl⟩
  simp only
  rcases hblock : b.block with i | _ | _ | _ | _
  · refine .bind (lim := .bytes (4 * fuel))
      ((brefuses_openLoop o b ⟨i, hblock⟩ fuel [] o none b.isLast (before_nil o b)).mono ?_)
      (btriple_openLoop o b fuel [] o none b.isLast (before_nil o b)) fun _ _ _ => .pure _
    rintro _ e ⟨bs, bytes, rfl, hc, hr⟩
    have := refused_next hc hr
    rwa [metadataBytes_cons, List.append_assoc, List.append_assoc] at this
  all_goals
    refine .fail ?_
    rw [List.append_nil]
    exact .missing b (by rintro ⟨i, hi⟩; rw [hblock] at hi; cases hi)

theorem bfails_open {fuel : Nat} {o : FlacReaderOptions} {bytes : List U8} {e : Error}
    (h : RefusedStream o bytes e) (hf : bytes.length < 4 * fuel) : BFails (openStream fuel o) bytes (.err e) := by
  rw [openStream_eq, openFlat_eq]
  have hnext : ∀ (first : EncodedBlock) (more : List EncodedBlock) (next : List U8), Continues o first more →
      RefusedNext more next e → bytes = streamMarker ++ metadataBytes (first :: more) ++ next →
      BFails (readStreamHeader >>= fun _ => readBlock >>= fun r =>
        match r.2 with
        | .streamInfo info => openLoop fuel o none r.1 >>= fun vc =>
          pure (info, if !o.readVorbisComment then none else vc)
        | _ => fmtErr "streaminfo block missing") bytes (.err e) := by
    rintro first more next hc hr rfl
    obtain ⟨i, hi⟩ := hc.streaminfo
    have hlen := length_metadataBytes more
    rw [metadataBytes_cons, List.append_assoc, List.append_assoc] at hf ⊢
    simp only [List.length_append] at hf
    refine .bind breads_marker (.bind (breads_block first) ?_)
    simp only
    rw [hi]
    exact .bind_left _ (bfails_loop o first fuel [] more o none first.isLast next e (before_nil o first) hc hr
      (by omega))
  cases h with
  | id3 d => exact .bind_left _ (bfails_marker (by simp [streamMarker]))
  | marker m h4 h h3 =>
    obtain ⟨a, b, c, d, rfl⟩ : ∃ a b c d, bytes = [a, b, c, d] := by
      rcases bytes with _ | ⟨a, _ | ⟨b, _ | ⟨c, _ | ⟨d, _ | _⟩⟩⟩⟩ <;> simp at h4
      exact ⟨a, b, c, d, rfl⟩
    have := bfails_marker h
    rw [markerError, if_neg h3] at this
    exact .bind_left _ this
  | first bytes e h => exact .bind breads_marker (.bind_left _ (bfails_block h))
  | missing b h =>
    refine .bind breads_marker ?_
    rw [← List.append_nil b.bytes]
    refine .bind (breads_block b) ?_
    simp only
    rcases hblock : b.block with i | _ | _ | _ | _
    · exact absurd ⟨i, hblock⟩ h
    all_goals exact .fail _
  | block first more hc bytes e hb => exact hnext first more _ hc (.block _ _ hb) rfl
  | streaminfo first more hc b hb => exact hnext first more _ hc (.streaminfo _ hb) rfl
  | comment first more hc b vc hb h1 => exact hnext first more _ hc (.comment _ vc hb h1) rfl

end Claxon
