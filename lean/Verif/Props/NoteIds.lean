import Verif.Props.Contexts
import Verif.Props.Escape
import Verif.Props.Markdown
import Verif.Lemmas.Semver

/-! Identifiers of references to footnotes and repeated definitions: C212, C213; targets of references: C37. -/

namespace Smd.Gfm
open Smd.Rs Smd.Spec

/-- What follows the identifier of a reference. -/
private def refTail (id : Str) : Str :=
  c!" role=\"doc-noteref\"><a href=\"#fn:" ++ escape id ++ c!"\" class=\"footnote\" rel=\"footnote\">1</a></sup>"

private theorem refHtml_split (id : Str) : refHtml c!"1" id = (c!"<sup id=\"fnref:" ++ escape id ++ c!"\"") ++ refTail id := by
  simp only [refHtml, refTail, List.append_assoc, List.cons_append, List.nil_append]

/-- Two references in a text, with what is around their identifiers. -/
private theorem two_refs (is js ks : List Inline) (a b : Str) (h : InlineGood none (is ++ .noteRef a :: (js ++ .noteRef b :: ks)))
    (hv : ∃ i, (is ++ .noteRef a :: (js ++ .noteRef b :: ks)).head? = some i ∧ i.Visible) :
    ∃ x y z, render (inlineSrc (is ++ .noteRef a :: (js ++ .noteRef b :: ks))) =
      .ok (x ++ (c!"<sup id=\"fnref:" ++ escape a ++ c!"\"") ++ y ++ (c!"<sup id=\"fnref:" ++ escape b ++ c!"\"") ++ z) := by
  refine ⟨c!"<p>" ++ inlineHtml is, refTail a ++ inlineHtml js, refTail b ++ inlineHtml ks ++ c!"</p>\n", ?_⟩
  rw [C87_refuted_always is js ks a b h hv, refHtml_split, refHtml_split]
  generalize c!"<sup id=\"fnref:" ++ escape a ++ c!"\"" = p
  generalize c!"<sup id=\"fnref:" ++ escape b ++ c!"\"" = q
  simp [elem]

/-- **C212, negated** Two references to one footnote have one identifier. -/
theorem C212_refuted : render c!"x[^a]y[^a]" = .ok (c!"<p>x<sup id=\"fnref:a\" role=\"doc-noteref\"><a href=\"#fn:a\" class=\"footnote\" " ++
    c!"rel=\"footnote\">1</a></sup>y<sup id=\"fnref:a\" role=\"doc-noteref\"><a href=\"#fn:a\" class=\"footnote\" rel=\"footnote\">1</a></sup></p>\n") := by
  decide +kernel

/-- So have any two references in running text whose names differ in backslashes only. -/
theorem C212_refuted_always (is js ks : List Inline) (a b : Str) (h : InlineGood none (is ++ .noteRef a :: (js ++ .noteRef b :: ks)))
    (hv : ∃ i, (is ++ .noteRef a :: (js ++ .noteRef b :: ks)).head? = some i ∧ i.Visible) (he : a.filter (· ≠ '\\') = b.filter (· ≠ '\\')) :
    ∃ i x y z, htmlDecode i = a.filter (· ≠ '\\') ∧ render (inlineSrc (is ++ .noteRef a :: (js ++ .noteRef b :: ks))) =
      .ok (x ++ (c!"<sup id=\"fnref:" ++ i ++ c!"\"") ++ y ++ (c!"<sup id=\"fnref:" ++ i ++ c!"\"") ++ z) := by
  obtain ⟨x, y, z, e⟩ := two_refs is js ks a b h hv
  have : escape b = escape a := by
    rw [← sanitize_eq_escape, ← sanitize_eq_escape]
    exact ((C04_injective a b).mpr he).symm
  rw [this] at e
  exact ⟨escape a, x, y, z, by rw [← sanitize_eq_escape, htmlDecode_sanitize], e⟩

/-- **C212, the part that holds** References to footnotes whose names differ in more than backslashes have different identifiers. -/
theorem C212_partial (is js ks : List Inline) (a b : Str) (h : InlineGood none (is ++ .noteRef a :: (js ++ .noteRef b :: ks)))
    (hv : ∃ i, (is ++ .noteRef a :: (js ++ .noteRef b :: ks)).head? = some i ∧ i.Visible) (he : a.filter (· ≠ '\\') ≠ b.filter (· ≠ '\\')) :
    ∃ i j x y z, i ≠ j ∧ htmlDecode i = a.filter (· ≠ '\\') ∧ htmlDecode j = b.filter (· ≠ '\\') ∧
      render (inlineSrc (is ++ .noteRef a :: (js ++ .noteRef b :: ks))) =
        .ok (x ++ (c!"<sup id=\"fnref:" ++ i ++ c!"\"") ++ y ++ (c!"<sup id=\"fnref:" ++ j ++ c!"\"") ++ z) := by
  obtain ⟨x, y, z, e⟩ := two_refs is js ks a b h hv
  refine ⟨escape a, escape b, x, y, z, fun hi => he ?_, ?_, ?_, e⟩
  · rw [← sanitize_eq_escape, ← sanitize_eq_escape] at hi
    exact (C04_injective a b).mp hi
  · rw [← sanitize_eq_escape, htmlDecode_sanitize]
  · rw [← sanitize_eq_escape, htmlDecode_sanitize]

example : ∃ i j x y z, i ≠ j ∧ htmlDecode i = c!"1" ∧ htmlDecode j = c!"2" ∧ render c!"a[^1] b[^2]" =
    .ok (x ++ (c!"<sup id=\"fnref:" ++ i ++ c!"\"") ++ y ++ (c!"<sup id=\"fnref:" ++ j ++ c!"\"") ++ z) :=
  C212_partial [.word c!"a"] [.space 1, .word c!"b"] [] c!"1" c!"2"
    ⟨word_check (by decide), ⟨⟨by decide, by decide⟩, by decide, by decide⟩, ⟨by decide, by decide, by decide, by decide⟩, word_check (by decide),
      ⟨⟨by decide, by decide⟩, by decide, by decide⟩, trivial⟩ ⟨_, rfl, trivial⟩ (by decide)

example : ∃ i x y z, htmlDecode i = c!"1" ∧
    render c!"a[^1] b[^1]" = .ok (x ++ (c!"<sup id=\"fnref:" ++ i ++ c!"\"") ++ y ++ (c!"<sup id=\"fnref:" ++ i ++ c!"\"") ++ z) :=
  C212_refuted_always [.word c!"a"] [.space 1, .word c!"b"] [] c!"1" c!"1"
    ⟨word_check (by decide), ⟨⟨by decide, by decide⟩, by decide, by decide⟩, ⟨by decide, by decide, by decide, by decide⟩, word_check (by decide),
      ⟨⟨by decide, by decide⟩, by decide, by decide⟩, trivial⟩ ⟨_, rfl, trivial⟩ (by decide)

/-- In two paragraphs of a document the same holds: the identifiers name the footnotes, and they are the same if and only if the names are. -/
theorem C212_paragraphs_partial (k n m : Nat) (bs cs ds : List (Block × Nat)) (p q u v : List Inline) (a b : Str)
    (h : DocGood (fun s x => render s = .ok x) (bs ++ (.para (p ++ .noteRef a :: q), n) :: (cs ++ (.para (u ++ .noteRef b :: v), m) :: ds))) :
    ∃ i j x y z, htmlDecode i = a.filter (· ≠ '\\') ∧ htmlDecode j = b.filter (· ≠ '\\') ∧ (i = j ↔ a.filter (· ≠ '\\') = b.filter (· ≠ '\\')) ∧
      render (times k '\n' ++ docSrc (bs ++ (.para (p ++ .noteRef a :: q), n) :: (cs ++ (.para (u ++ .noteRef b :: v), m) :: ds))) =
        .ok (x ++ (c!"<sup id=\"fnref:" ++ i ++ c!"\"") ++ y ++ (c!"<sup id=\"fnref:" ++ j ++ c!"\"") ++ z) := by
  have e := C60_documents ⟨k, bs ++ (.para (p ++ .noteRef a :: q), n) :: (cs ++ (.para (u ++ .noteRef b :: v), m) :: ds), .none⟩ ⟨h, trivial, .inl rfl⟩
  have r : ∀ (x y : List Inline) (c : Str), ∃ g, (Block.para (x ++ .noteRef c :: y)).html = c!"<p>" ++ inlineHtml x ++ (c!"<sup id=\"fnref:" ++ escape c ++ c!"\"") ++ g := by
    intro x y c
    refine ⟨refTail c ++ inlineHtml y ++ c!"</p>\n", ?_⟩
    have e1 : (Inline.noteRef c).html = (c!"<sup id=\"fnref:" ++ escape c ++ c!"\"") ++ refTail c := by
      rw [← refHtml_split]
      simp only [Inline.html, refHtml, List.append_assoc, List.cons_append, List.nil_append]
    have e2 : inlineHtml (x ++ .noteRef c :: y) = inlineHtml x ++ ((c!"<sup id=\"fnref:" ++ escape c ++ c!"\"") ++ refTail c ++ inlineHtml y) := by
      rw [← e1]
      simp [inlineHtml]
    rw [Block.html, e2]
    generalize c!"<sup id=\"fnref:" ++ escape c ++ c!"\"" = w
    simp [elem]
  obtain ⟨g1, r1⟩ := r p q a
  obtain ⟨g2, r2⟩ := r u v b
  have hz : ∀ s : Str, ∃ t, endLine s = s ++ t := fun s => by
    unfold endLine
    split
    · exact ⟨[], by simp⟩
    · exact ⟨_, rfl⟩
  obtain ⟨t, ht⟩ := hz (docHtml (bs ++ (.para (p ++ .noteRef a :: q), n) :: (cs ++ (.para (u ++ .noteRef b :: v), m) :: ds)))
  refine ⟨escape a, escape b, docHtml bs ++ c!"<p>" ++ inlineHtml p, g1 ++ docHtml cs ++ c!"<p>" ++ inlineHtml u, g2 ++ docHtml ds ++ t, ?_, ?_, ?_, ?_⟩
  · rw [← sanitize_eq_escape, htmlDecode_sanitize]
  · rw [← sanitize_eq_escape, htmlDecode_sanitize]
  · rw [← sanitize_eq_escape, ← sanitize_eq_escape]
    exact C04_injective a b
  · have e3 : render (times k '\n' ++ docSrc (bs ++ (.para (p ++ .noteRef a :: q), n) :: (cs ++ (.para (u ++ .noteRef b :: v), m) :: ds))) =
        .ok (endLine (docHtml (bs ++ (.para (p ++ .noteRef a :: q), n) :: (cs ++ (.para (u ++ .noteRef b :: v), m) :: ds)))) := by
      simpa [Doc.src, Doc.html, Ending.src, Ending.html] using e
    rw [e3, ht]
    simp only [docHtml, List.flatMap_append, List.flatMap_cons, r1, r2]
    generalize c!"<sup id=\"fnref:" ++ escape a ++ c!"\"" = w1
    generalize c!"<sup id=\"fnref:" ++ escape b ++ c!"\"" = w2
    simp

example : ∃ i j x y z, htmlDecode i = c!"1" ∧ htmlDecode j = c!"1" ∧ (i = j ↔ c!"1" = c!"1") ∧ render c!"a[^1]\n\nb[^1]" =
    .ok (x ++ (c!"<sup id=\"fnref:" ++ i ++ c!"\"") ++ y ++ (c!"<sup id=\"fnref:" ++ j ++ c!"\"") ++ z) :=
  C212_paragraphs_partial 0 2 0 [] [] [] [.word c!"a"] [] [.word c!"b"] [] c!"1" c!"1"
    ⟨⟨⟨word_check (by decide), ⟨⟨by decide, by decide⟩, by decide, by decide⟩, trivial⟩, ⟨_, rfl, trivial⟩⟩, by decide,
      ⟨word_check (by decide), ⟨⟨by decide, by decide⟩, by decide, by decide⟩, trivial⟩, ⟨_, rfl, trivial⟩⟩

/-! ### C213 Footnotes that are defined twice -/

/-- How many links of a page lead back to references to the footnote with this name. -/
def backLinks (id page : Str) : Nat := ((pieces '"' page).filter (· = c!"#fnref:" ++ escape id)).length

private theorem pieces_quote {a : Str} (s : Str) (h : '"' ∉ a) : pieces '"' (a ++ '"' :: s) = a :: pieces '"' s := by
  induction a with
  | nil => simp [pieces]
  | cons x a ih =>
    have h1 : x ≠ '"' := fun e => h (by simp [e])
    rw [List.cons_append, pieces, if_neg h1, ih (fun m => h (List.mem_cons_of_mem _ m))]

private theorem backLinks_skip {a id : Str} (s : Str) (h : '"' ∉ a) (h2 : a.head? ≠ some '#') : backLinks id (a ++ '"' :: s) = backLinks id s := by
  have : a ≠ c!"#fnref:" ++ escape id := fun e => h2 (by rw [e]; rfl)
  rw [backLinks, pieces_quote s h, List.filter_cons_of_neg (by simpa using this)]
  rfl

private theorem escape_noquote (x : Str) : '"' ∉ escape x := by
  rw [← sanitize_eq_escape]
  exact C03_no_delimiters x '"' (by decide)

private theorem backLinks_notes (id tail : Str) (ht : '"' ∉ tail) (ht2 : tail.head? ≠ some '#') : ∀ (defs : List NoteDef) (pre : Str), '"' ∉ pre →
    (∃ c u, pre = c :: u ∧ c ≠ '#') →
    backLinks id (pre ++ (defs.flatMap NoteDef.html ++ tail)) = (defs.filter fun d => escape d.id = escape id).length
  | [], pre, hp, ⟨c, u, e, hc⟩ => by
    have : pre ++ tail ≠ c!"#fnref:" ++ escape id := fun h => hc (by rw [e] at h; exact (List.cons.inj h).1)
    rw [List.flatMap_nil, List.nil_append, backLinks, pieces_one (by simp [hp, ht]), List.filter_cons_of_neg (by simpa using this)]
    rfl
  | d :: ds, pre, hp, ⟨c, u, e, hc⟩ => by
    have ih := backLinks_notes id tail ht ht2 ds c!">↩</a></p>\t\t</li>" (by decide) ⟨_, _, rfl, by decide⟩
    have es : pre ++ ((d :: ds).flatMap NoteDef.html ++ tail) =
        (pre ++ c!"\t\t<li id=") ++ '"' :: (c!"fn:1" ++ '"' :: (c!" role=" ++ '"' :: (c!"doc-endnote" ++ '"' ::
          ((c!">\t\t\t<p>" ++ escape d.text ++ c!"<a href=") ++ '"' :: ((c!"#fnref:" ++ escape d.id) ++ '"' :: (c!" class=" ++ '"' ::
            (c!"reversefootnote" ++ '"' :: (c!" role=" ++ '"' :: (c!"doc-backlink" ++ '"' ::
              (c!">↩</a></p>\t\t</li>" ++ (ds.flatMap NoteDef.html ++ tail))))))))))) := by
      simp only [List.flatMap_cons, NoteDef.html, List.append_assoc, List.cons_append, List.nil_append]
    have hl : ∀ s, backLinks id ((c!"#fnref:" ++ escape d.id) ++ '"' :: s) = (if escape d.id = escape id then 1 else 0) + backLinks id s := by
      intro s
      rw [backLinks, pieces_quote s (by simp [escape_noquote])]
      by_cases hq : escape d.id = escape id
      · rw [List.filter_cons_of_pos (by simp [hq]), if_pos hq, List.length_cons, backLinks, Nat.add_comm]
      · rw [List.filter_cons_of_neg (by simpa using hq), if_neg hq, Nat.zero_add]
        rfl
    rw [es, backLinks_skip _ (by simp [hp]) (by rw [e]; simpa using hc), backLinks_skip _ (by decide) (by decide), backLinks_skip _ (by decide) (by decide),
      backLinks_skip _ (by decide) (by decide), backLinks_skip _ (by simp [escape_noquote]) (by simp), hl, backLinks_skip _ (by decide) (by decide),
      backLinks_skip _ (by decide) (by decide), backLinks_skip _ (by decide) (by decide), backLinks_skip _ (by decide) (by decide), ih]
    by_cases hq : escape d.id = escape id
    · rw [List.filter_cons_of_pos (by simpa using hq), if_pos hq, List.length_cons, Nat.add_comm]
    · rw [List.filter_cons_of_neg (by simpa using hq), if_neg hq, Nat.zero_add]

/-- The endnotes with a name are as many as the definitions with it. -/
private theorem notes_count (k : Nat) (bs : List (Block × Nat)) (defs : List NoteDef) (id : Str) (hne : defs ≠ []) (hd : ∀ d ∈ defs, d.Good)
    (hgap : ∀ d ∈ defs.dropLast, 1 ≤ d.ends) (h : DocGood (fun s x => render s = .ok x) bs) (hbetween : ∀ b, bs.getLast? = some b → 2 ≤ b.2) :
    ∃ notes, render (times k '\n' ++ docSrc bs ++ defs.flatMap NoteDef.src) = .ok (endLine (docHtml bs) ++ notes) ∧
      (∀ d ∈ defs, c!"<p>" ++ escape d.text ++ c!"<a href=\"#fnref:" ++ escape d.id ++ c!"\"" <:+: notes) ∧
      backLinks id notes = (defs.filter fun d => d.id.filter (· ≠ '\\') = id.filter (· ≠ '\\')).length := by
  refine ⟨_, C37_partial k bs defs hne hd hgap h hbetween, fun d hd => ?_, ?_⟩
  · obtain ⟨l, m, rfl⟩ := List.append_of_mem hd
    refine ⟨c!"<div class=\"footnotes\" role=\"doc-endnotes\">\n\t<ol>\n" ++ l.flatMap NoteDef.html ++ c!"\t\t<li id=\"fn:1\" role=\"doc-endnote\">\t\t\t",
      c!" class=\"reversefootnote\" role=\"doc-backlink\">↩</a></p>\t\t</li>" ++ m.flatMap NoteDef.html ++ c!"\t</ol>\n</div>\n", ?_⟩
    simp only [List.flatMap_append, List.flatMap_cons, NoteDef.html, List.append_assoc, List.cons_append, List.nil_append]
  have e := backLinks_notes id c!"\t</ol>\n</div>\n" (by decide) (by decide) defs c!">\n\t<ol>\n" (by decide) ⟨_, _, rfl, by decide⟩
  have es : c!"<div class=\"footnotes\" role=\"doc-endnotes\">\n\t<ol>\n" ++ defs.flatMap NoteDef.html ++ c!"\t</ol>\n</div>\n" =
      c!"<div class=" ++ '"' :: (c!"footnotes" ++ '"' :: (c!" role=" ++ '"' :: (c!"doc-endnotes" ++ '"' ::
        (c!">\n\t<ol>\n" ++ (defs.flatMap NoteDef.html ++ c!"\t</ol>\n</div>\n"))))) := by
    simp only [List.cons_append, List.nil_append]
  have hf : (fun d : NoteDef => decide (escape d.id = escape id)) = fun d => decide (d.id.filter (· ≠ '\\') = id.filter (· ≠ '\\')) := by
    funext d
    rw [← sanitize_eq_escape, ← sanitize_eq_escape]
    exact decide_eq_decide.2 (C04_injective _ _)
  rw [es, backLinks_skip _ (by decide) (by decide), backLinks_skip _ (by decide) (by decide), backLinks_skip _ (by decide) (by decide),
    backLinks_skip _ (by decide) (by decide), e, hf]

/-- **C213, negated** Both definitions of a footnote are shown. -/
theorem C213_refuted : ∃ html, render c!"a[^n]\n\n[^n]: x\n[^n]: y" = .ok html ∧ backLinks c!"n" html = 2 ∧ c!"<p>x<a" <:+: html ∧ c!"<p>y<a" <:+: html :=
  render_check _ (fun html => backLinks c!"n" html = 2 ∧ c!"<p>x<a" <:+: html ∧ c!"<p>y<a" <:+: html) (by decide +kernel)

/-- So are all definitions of every footnote. -/
theorem C213_refuted_always (k : Nat) (bs : List (Block × Nat)) (defs mid more : List NoteDef) (a b : NoteDef) (hab : a.id = b.id)
    (hd : ∀ d ∈ defs ++ a :: (mid ++ b :: more), d.Good) (hgap : ∀ d ∈ (defs ++ a :: (mid ++ b :: more)).dropLast, 1 ≤ d.ends)
    (h : DocGood (fun s x => render s = .ok x) bs) (hbetween : ∀ b, bs.getLast? = some b → 2 ≤ b.2) :
    ∃ notes, render (times k '\n' ++ docSrc bs ++ (defs ++ a :: (mid ++ b :: more)).flatMap NoteDef.src) = .ok (endLine (docHtml bs) ++ notes) ∧
      2 ≤ backLinks a.id notes ∧ c!"<p>" ++ escape a.text ++ c!"<a href=\"#fnref:" ++ escape a.id ++ c!"\"" <:+: notes ∧
      c!"<p>" ++ escape b.text ++ c!"<a href=\"#fnref:" ++ escape a.id ++ c!"\"" <:+: notes := by
  obtain ⟨notes, e, ht, hc⟩ := notes_count k bs (defs ++ a :: (mid ++ b :: more)) a.id (by simp) hd hgap h hbetween
  refine ⟨notes, e, ?_, ht a (by simp), hab ▸ ht b (by simp)⟩
  rw [hc]
  simp only [List.filter_append, List.length_append, List.filter_cons, hab, decide_true, if_true, List.length_cons]
  omega

/-- **C213, the part that holds** A footnote with one definition has one endnote, wherever its definition is among the others. -/
theorem C213_partial (k : Nat) (bs : List (Block × Nat)) (defs more : List NoteDef) (a : NoteDef)
    (hone : ∀ d ∈ defs ++ more, d.id.filter (· ≠ '\\') ≠ a.id.filter (· ≠ '\\')) (hd : ∀ d ∈ defs ++ a :: more, d.Good)
    (hgap : ∀ d ∈ (defs ++ a :: more).dropLast, 1 ≤ d.ends) (h : DocGood (fun s x => render s = .ok x) bs)
    (hbetween : ∀ b, bs.getLast? = some b → 2 ≤ b.2) :
    ∃ notes, render (times k '\n' ++ docSrc bs ++ (defs ++ a :: more).flatMap NoteDef.src) = .ok (endLine (docHtml bs) ++ notes) ∧ backLinks a.id notes = 1 ∧
      c!"<p>" ++ escape a.text ++ c!"<a href=\"#fnref:" ++ escape a.id ++ c!"\"" <:+: notes := by
  obtain ⟨notes, e, ht, hc⟩ := notes_count k bs (defs ++ a :: more) a.id (by simp) hd hgap h hbetween
  refine ⟨notes, e, ?_, ht a (by simp)⟩
  have f1 : defs.filter (fun d => d.id.filter (· ≠ '\\') = a.id.filter (· ≠ '\\')) = [] :=
    List.filter_eq_nil_iff.2 fun d hd => by simpa using hone d (List.mem_append_left _ hd)
  have f2 : more.filter (fun d => d.id.filter (· ≠ '\\') = a.id.filter (· ≠ '\\')) = [] :=
    List.filter_eq_nil_iff.2 fun d hd => by simpa using hone d (List.mem_append_right _ hd)
  rw [hc, List.filter_append, f1, List.filter_cons_of_pos (by simp), f2]
  rfl

private theorem sample_defs (a b : Str) (ha : NoteId a) (hb : NoteId b) : ∀ d ∈ [(⟨a, 1, c!"x", [], 1⟩ : NoteDef), ⟨b, 1, c!"y", [], 0⟩], d.Good := by
  intro d hd
  simp only [List.mem_cons, List.not_mem_nil, or_false] at hd
  rcases hd with rfl | rfl
  · exact ⟨ha, by simp, by simp, ⟨_, _, rfl, by decide⟩, ⟨'x', [], rfl, by decide⟩⟩
  · exact ⟨hb, by simp, by simp, ⟨_, _, rfl, by decide⟩, ⟨'y', [], rfl, by decide⟩⟩

example : ∃ notes, render c!"[^n]: x\n[^m]: y" = .ok (c!"\n" ++ notes) ∧ backLinks c!"m" notes = 1 ∧ c!"<p>y<a href=\"#fnref:m\"" <:+: notes :=
  C213_partial 0 [] [⟨c!"n", 1, c!"x", [], 1⟩] [] ⟨c!"m", 1, c!"y", [], 0⟩ (by decide) (sample_defs _ _ ⟨by decide, by decide⟩ ⟨by decide, by decide⟩) (by decide) trivial
    (by simp)

example : ∃ notes, render c!"[^n]: x\n[^n]: y" = .ok (c!"\n" ++ notes) ∧ 2 ≤ backLinks c!"n" notes ∧ c!"<p>x<a href=\"#fnref:n\"" <:+: notes ∧
    c!"<p>y<a href=\"#fnref:n\"" <:+: notes :=
  C213_refuted_always 0 [] [] [] [] ⟨c!"n", 1, c!"x", [], 1⟩ ⟨c!"n", 1, c!"y", [], 0⟩ rfl (sample_defs _ _ ⟨by decide, by decide⟩ ⟨by decide, by decide⟩) (by decide)
    trivial (by simp)

/-! ### C37 Targets of references -/

set_option maxRecDepth 4000 in
/-- **C37, negated** The link of a reference has no target unless the footnote has the name 1: no attribute of the page is the identifier it names. -/
theorem C37_refuted_targets (w : Str) (d : NoteDef) (hd : d.Good) (h : (Block.para [.word w, .noteRef d.id]).Good fun s x => render s = .ok x)
    (hid : d.id.filter (· ≠ '\\') ≠ c!"1") :
    ∃ html, render (w ++ c!"[^" ++ d.id ++ c!"]\n\n" ++ d.src) = .ok html ∧ c!"#fn:" ++ escape d.id ∈ pieces '"' html ∧ c!"fn:" ++ escape d.id ∉ pieces '"' html := by
  have e := C37_partial 0 [(.para [.word w, .noteRef d.id], 2)] [d] (by simp) (by simpa using hd) (by simp) h (by simp)
  have e0 : endLine (docHtml [(.para [.word w, .noteRef d.id], 2)]) = (Block.para [.word w, .noteRef d.id]).html := by
    rw [docHtml, List.flatMap_singleton]
    exact if_pos (by simp [Block.html])
  have hne : escape d.id ≠ c!"1" := fun he => hid (by
    rw [← htmlDecode_sanitize, sanitize_eq_escape, he]
    decide +kernel)
  have es : (Block.para [.word w, .noteRef d.id]).html ++ (c!"<div class=\"footnotes\" role=\"doc-endnotes\">\n\t<ol>\n" ++ [d].flatMap NoteDef.html ++ c!"\t</ol>\n</div>\n") =
      (c!"<p>" ++ escape w ++ c!"<sup id=") ++ '"' :: ((c!"fnref:" ++ escape d.id) ++ '"' :: (c!" role=" ++ '"' :: (c!"doc-noteref" ++ '"' :: (c!"><a href=" ++ '"' ::
        ((c!"#fn:" ++ escape d.id) ++ '"' :: (c!" class=" ++ '"' :: (c!"footnote" ++ '"' :: (c!" rel=" ++ '"' :: (c!"footnote" ++ '"' ::
          (c!">1</a></sup></p>\n<div class=" ++ '"' :: (c!"footnotes" ++ '"' :: (c!" role=" ++ '"' :: (c!"doc-endnotes" ++ '"' ::
            (c!">\n\t<ol>\n\t\t<li id=" ++ '"' :: (c!"fn:1" ++ '"' :: (c!" role=" ++ '"' :: (c!"doc-endnote" ++ '"' ::
              ((c!">\t\t\t<p>" ++ escape d.text ++ c!"<a href=") ++ '"' :: ((c!"#fnref:" ++ escape d.id) ++ '"' :: (c!" class=" ++ '"' ::
                (c!"reversefootnote" ++ '"' :: (c!" role=" ++ '"' :: (c!"doc-backlink" ++ '"' :: c!">↩</a></p>\t\t</li>\t</ol>\n</div>\n"))))))))))))))))))))))) := by
    simp only [Block.html, inlineHtml, Inline.html, elem, List.flatMap_cons, List.flatMap_nil, NoteDef.html, List.append_assoc, List.cons_append, List.nil_append,
      List.append_nil]
  have hs : w ++ c!"[^" ++ d.id ++ c!"]\n\n" ++ d.src = times 0 '\n' ++ docSrc [(.para [.word w, .noteRef d.id], 2)] ++ [d].flatMap NoteDef.src := by
    simp [docSrc, Block.src, inlineSrc, Inline.src, times]
  rw [e0, es, ← hs] at e
  refine ⟨_, e, ?_⟩
  rw [pieces_quote _ (by simp [escape_noquote]), pieces_quote _ (by simp [escape_noquote]), pieces_quote _ (by decide), pieces_quote _ (by decide),
    pieces_quote _ (by decide), pieces_quote _ (by simp [escape_noquote]), pieces_quote _ (by decide), pieces_quote _ (by decide), pieces_quote _ (by decide),
    pieces_quote _ (by decide), pieces_quote _ (by decide), pieces_quote _ (by decide), pieces_quote _ (by decide), pieces_quote _ (by decide),
    pieces_quote _ (by decide), pieces_quote _ (by decide), pieces_quote _ (by decide), pieces_quote _ (by decide), pieces_quote _ (by simp [escape_noquote]),
    pieces_quote _ (by simp [escape_noquote]), pieces_quote _ (by decide), pieces_quote _ (by decide), pieces_quote _ (by decide), pieces_quote _ (by decide),
    pieces_one (by decide)]
  exact ⟨by simp, by simp [hne]⟩

example : ∃ html, render c!"see[^note]\n\n[^note]: this" = .ok html ∧ c!"#fn:note" ∈ pieces '"' html ∧ c!"fn:note" ∉ pieces '"' html :=
  C37_refuted_targets c!"see" ⟨c!"note", 1, c!"this", [], 0⟩
    ⟨⟨by decide, by decide⟩, by decide, by decide, ⟨_, _, rfl, by decide⟩, ⟨'s', c!"thi", rfl, by decide⟩⟩
    ⟨⟨word_check (by decide), ⟨⟨by decide, by decide⟩, by decide, by decide⟩, trivial⟩, ⟨_, rfl, trivial⟩⟩ (by decide)

end Smd.Gfm
