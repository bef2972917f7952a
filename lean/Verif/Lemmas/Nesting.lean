import Verif.Lemmas.Corollaries
import Verif.Spec.Nesting

/-! The HTML of `Verif.Spec.Markdown` is properly nested. -/

namespace Smd.Gfm
open Smd.Rs Smd.Spec

theorem nested_escape (s : Str) : Nested (escape s) := by
  rw [← sanitize_eq_escape]
  exact .text _ (C03_no_delimiters s '<' (by decide)) (C03_no_delimiters s '>' (by decide))

theorem nested_elem {n x : Str} (hn : n ∈ elementNames) (hv : n ∉ voidNames) (hx : Nested x) : Nested (elem n x) := by
  have := Nested.elem n [] x hn hv (by simp) hx
  simpa [openTag, closeTag, Smd.Spec.elem] using this

theorem nested_nl : Nested c!"\n" := .text _ (by decide) (by decide)

theorem nested_nil : Nested [] := .text _ (by decide) (by decide)

theorem nested_flatMap {α : Type} (f : α → Str) : ∀ l : List α, (∀ a ∈ l, Nested (f a)) → Nested (l.flatMap f)
  | [], _ => nested_nil
  | a :: l, h => by
    rw [List.flatMap_cons]
    exact .append _ _ (h a (by simp)) (nested_flatMap f l fun b hb => h b (by simp [hb]))

theorem nested_anchor {t x : Str} (ht : PlainTarget t) (hx : Nested x) : Nested (c!"<a href=\"" ++ t ++ c!"\">" ++ x ++ c!"</a>") := by
  have := Nested.elem c!"a" [(c!"href", t)] x (by decide) (by decide) (by
    intro a ha
    rw [List.mem_singleton] at ha
    subst ha
    refine ⟨(by decide : c!"href" ∈ attrNames), ?_, ?_, ?_⟩ <;> exact fun h => (ht.chars _ h).2.2 (by decide)) hx
  simpa [openTag, closeTag, attrText] using this

theorem nested_noteRef (id : Str) : Nested (Inline.noteRef id).html := by
  have hq : ∀ p : Str, ('<' ∉ p ∧ '>' ∉ p ∧ '"' ∉ p) → ('<' ∉ p ++ escape id ∧ '>' ∉ p ++ escape id ∧ '"' ∉ p ++ escape id) := by
    intro p ⟨h1, h2, h3⟩
    have h4 := escape_no_delim id
    have h5 : '"' ∉ escape id := by rw [← sanitize_eq_escape]; exact C03_no_delimiters id '"' (by decide)
    simp [h1, h2, h3, h4, h5]
  have := Nested.elem c!"a" [(c!"href", c!"#fn:" ++ escape id), (c!"class", c!"footnote"), (c!"rel", c!"footnote")] c!"1" (by decide) (by decide) (by
    intro a ha
    simp only [List.mem_cons, List.not_mem_nil, or_false] at ha
    rcases ha with rfl | rfl | rfl
    · have := hq c!"#fn:" (by decide); exact ⟨(by decide : c!"href" ∈ attrNames), this.2.2, this.1, this.2.1⟩
    · decide
    · decide) (.text _ (by decide) (by decide))
  have := Nested.elem c!"sup" [(c!"id", c!"fnref:" ++ escape id), (c!"role", c!"doc-noteref")] _ (by decide) (by decide) (by
    intro a ha
    simp only [List.mem_cons, List.not_mem_nil, or_false] at ha
    rcases ha with rfl | rfl
    · have := hq c!"fnref:" (by decide); exact ⟨(by decide : c!"id" ∈ attrNames), this.2.2, this.1, this.2.1⟩
    · decide) this
  simpa [openTag, closeTag, attrText, Inline.html] using this

theorem nested_inline {i : Inline} {next : Option Char} (h : i.Good next) : Nested i.html := by
  cases i with
  | word w => exact nested_escape w
  | space n => exact nested_nil
  | eol => exact nested_nil
  | digit c =>
    have : ∀ c ∈ c!"0123456789", '<' ∉ [c] ∧ '>' ∉ [c] := by decide
    exact .text _ (this c h.1).1 (this c h.1).2
  | bang => exact .text _ (by decide) (by decide)
  | em m t => exact nested_elem (by decide) (by decide) (nested_escape t)
  | strong m t => exact nested_elem (by decide) (by decide) (nested_escape t)
  | strongEm m t => exact nested_elem (by decide) (by decide) (nested_elem (by decide) (by decide) (nested_escape t))
  | strike t => exact nested_elem (by decide) (by decide) (nested_escape t)
  | tildes n => exact nested_escape _
  | escaped c => exact nested_escape _
  | noteRef id => exact nested_noteRef id
  | arrows n => exact nested_escape _
  | digitDot c =>
    have : ∀ c ∈ c!"0123456789", '<' ∉ [c, '.'] ∧ '>' ∉ [c, '.'] := by decide
    exact .text _ (this c h.1).1 (this c h.1).2
  | brackets t => exact nested_escape _
  | angle t => exact nested_escape _
  | escapedHashes n => exact .text _ (by simp [Inline.html, List.mem_replicate]) (by simp [Inline.html, List.mem_replicate])
  | dashes a b =>
    have : '<' ∉ [a, b] ∧ '>' ∉ [a, b] := by rcases h.1 with rfl | rfl <;> rcases h.2.1 with rfl | rfl <;> decide
    exact .text [a, b] this.1 this.2
  | link text target => exact nested_anchor h.2 (nested_escape text)
  | autolink target =>
    have h : PlainTarget target := h
    exact nested_anchor h (.text _ (fun hm => (h.chars _ hm).2.2 (by decide)) (fun hm => (h.chars _ hm).2.2 (by decide)))

theorem nested_inlines : ∀ {is : List Inline} {next : Option Char}, InlineGood next is → Nested (inlineHtml is)
  | [], _, _ => nested_nil
  | i :: is, _, h => by
    rw [inlineHtml, List.flatMap_cons]
    exact .append _ _ (nested_inline h.1) (nested_inlines h.2)

/-- No quotation marks and no angle brackets. -/
def Quotable (v : Str) : Prop := '"' ∉ v ∧ '<' ∉ v ∧ '>' ∉ v

theorem quotable_escape (s : Str) : Quotable (escape s) := by
  rw [← sanitize_eq_escape]
  exact ⟨C03_no_delimiters s '"' (by decide), C03_no_delimiters s '<' (by decide), C03_no_delimiters s '>' (by decide)⟩

theorem Quotable.append {a b : Str} (ha : Quotable a) (hb : Quotable b) : Quotable (a ++ b) := by
  simp [Quotable, ha.1, ha.2.1, ha.2.2, hb.1, hb.2.1, hb.2.2]

theorem nested_attr1 {n x k v : Str} (hn : n ∈ elementNames) (hv : n ∉ voidNames) (hk : k ∈ attrNames) (hq : Quotable v) (hx : Nested x) :
    Nested (c!"<" ++ n ++ c!" " ++ k ++ c!"=\"" ++ v ++ c!"\">" ++ x ++ c!"</" ++ n ++ c!">") := by
  have := Nested.elem n [(k, v)] x hn hv (by
    intro a ha
    rw [List.mem_singleton] at ha
    subst ha
    exact ⟨hk, hq⟩) hx
  simpa [openTag, closeTag, attrText] using this

theorem alignOf_quotable (d : Str) : Quotable (c!"text-align: " ++ alignOf d) := by
  unfold alignOf
  split
  · split <;> (constructor <;> decide)
  · constructor <;> decide

theorem nested_cell {i : Inline} {next : Option Char} {w : Str} (hw : Nested w) (h : i.Good next) : Nested (i.cellHtml w) := by
  cases i with
  | space n =>
    refine .text _ ?_ ?_ <;> simp [Inline.cellHtml, times, List.mem_replicate]
  | strike t => exact nested_nil
  | noteRef id => exact nested_escape _
  | link _ _ => exact hw
  | autolink _ => exact hw
  | _ => exact nested_inline h

theorem nested_cells {w : Str} (hw : Nested w) : ∀ {is : List Inline} {next : Option Char}, InlineGood next is →
    Nested (is.flatMap (Inline.cellHtml w))
  | [], _, _ => nested_nil
  | i :: is, _, h => by
    rw [List.flatMap_cons]
    exact .append _ _ (nested_cell hw h.1) (nested_cells hw h.2)

theorem nested_table {t : Table} (h : t.Good) : Nested t.html := by
  have txt : ∀ s : Str, ('<' ∉ s ∧ '>' ∉ s) → Nested s := fun s h => .text s h.1 h.2
  have hth := nested_flatMap (fun c : Str × Str => c!"\t\t<th style=\"text-align: " ++ alignOf c.1 ++ c!"\">" ++ escape (trimmed c.2) ++ c!"</th>")
    (t.delims.zip t.head) (fun c _ => by
      have := Nested.append c!"\t\t" _ (txt _ (by decide))
        (nested_attr1 (n := c!"th") (k := c!"style") (by decide) (by decide) (by decide) (alignOf_quotable c.1) (nested_escape (trimmed c.2)))
      simpa using this)
  have htr : ∀ r ∈ t.rows, Nested (c!"\n\t<tr>" ++
      ((t.delims.zip r).flatMap fun c => c!"\n\t\t<td style=\"text-align: " ++ alignOf c.1 ++ c!"\">" ++ c.2.html ++ c!"</td>") ++ c!"\n\t</tr>") := by
    intro r hr
    have htd := nested_flatMap (fun c : Str × Cell => c!"\n\t\t<td style=\"text-align: " ++ alignOf c.1 ++ c!"\">" ++ c.2.html ++ c!"</td>")
      (t.delims.zip r) (fun c hc => by
        have := Nested.append c!"\n\t\t" _ (txt _ (by decide))
          (nested_attr1 (n := c!"td") (k := c!"style") (by decide) (by decide) (by decide) (alignOf_quotable c.1)
            (nested_cells (.append _ c!"\n" (nested_elem (n := c!"p") (by decide) (by decide)
              (nested_inlines (h.cells r hr c.2 (List.of_mem_zip hc).2).good)) (txt _ (by decide)))
              (h.cells r hr c.2 (List.of_mem_zip hc).2).good))
        simpa [Cell.html] using this)
    have := Nested.append c!"\n\t" _ (txt _ (by decide))
      (nested_elem (n := c!"tr") (by decide) (by decide) (.append _ c!"\n\t" htd (txt _ (by decide))))
    simpa [Smd.Spec.elem] using this
  have hbody := nested_flatMap _ t.rows htr
  have h1 := nested_elem (n := c!"tr") (by decide) (by decide) (.append c!"\n" _ (txt _ (by decide)) (.append _ c!"\t" hth (txt _ (by decide))))
  have h2 := nested_elem (n := c!"thead") (by decide) (by decide)
    (.append c!"\n\t" _ (txt _ (by decide)) (.append _ c!"\n\t" h1 (txt _ (by decide))))
  have h3 := nested_elem (n := c!"tbody") (by decide) (by decide) (.append _ c!"\n\t" hbody (txt _ (by decide)))
  have := nested_attr1 (n := c!"table") (k := c!"class") (v := c!"table table-bordered") (by decide) (by decide) (by decide)
    ⟨by decide, by decide, by decide⟩
    (.append c!"\n\t" _ (txt _ (by decide)) (.append _ _ h2 (.append c!"\n\t" _ (txt _ (by decide)) (.append _ c!"\n" h3 (txt _ (by decide))))))
  simpa [Table.html, Smd.Spec.elem] using this

/-- Rendering to properly nested HTML. -/
def RendersNested (s x : Str) : Prop := render s = .ok x ∧ Nested x

theorem nested_li {x : Str} (h : Nested x) : Nested (c!"<li>\n" ++ x ++ c!"</li>\n") := by
  have := Nested.append _ _ (nested_elem (n := c!"li") (by decide) (by decide) (.append c!"\n" x nested_nl h)) nested_nl
  simpa [Smd.Spec.elem] using this

theorem nested_task (c : Bool) (w : Str) : Nested (taskHtml c w) := by
  have h1 : Nested (openTag c!"input" ([(c!"type", c!"checkbox"), (c!"class", c!"task-list-item-checkbox")] ++
      if c then [(c!"checked", [])] else [])) := .void _ _ (by decide) (by cases c <;> decide)
  have := Nested.elem c!"li" [(c!"class", c!"task-list-item")] _ (by decide) (by decide) (by decide)
    (.append _ _ h1 (nested_escape w))
  cases c <;> simpa [taskHtml, openTag, closeTag, attrText] using this

theorem detab_append (a b : Str) : detab (a ++ b) = detab a ++ detab b := List.flatMap_append

theorem detab_mem {x : Str} {c : Char} (hc : c ≠ ' ') (h : c ∈ detab x) : c ∈ x := by
  obtain ⟨d, hd, h⟩ := List.mem_flatMap.mp h
  by_cases e : d = '\t'
  · rw [if_pos e] at h
    simp [hc] at h
  · rw [if_neg e, List.mem_singleton] at h
    rw [h]; exact hd

theorem detab_self {x : Str} (h : '\t' ∉ x) : detab x = x := by
  induction x with
  | nil => rfl
  | cons c x ih =>
    have e : c ≠ '\t' := fun e => h (by simp [e])
    rw [show detab (c :: x) = [c] ++ detab x by simp [detab, e], ih (fun hx => h (by simp [hx]))]
    rfl

theorem detab_attr {a : Str × Str} (h : a.1 ∈ attrNames) : detab (attrText a) = attrText (a.1, detab a.2) := by
  have hn : ∀ n ∈ attrNames, '\t' ∉ n := by decide
  unfold attrText
  simp only [detab_append, detab_self (x := ' ' :: a.1) (by simp [hn _ h])]
  rfl

theorem detab_openTag {n : Str} (hn : '\t' ∉ n) : ∀ {attrs : List (Str × Str)}, (∀ a ∈ attrs, a.1 ∈ attrNames) →
    detab (openTag n attrs) = openTag n (attrs.map fun a => (a.1, detab a.2)) := by
  intro attrs ha
  have e : detab (attrs.flatMap attrText) = (attrs.map fun a => (a.1, detab a.2)).flatMap attrText := by
    induction attrs with
    | nil => rfl
    | cons a as ih =>
      rw [List.flatMap_cons, detab_append, ih fun b hb => ha b (by simp [hb]), detab_attr (ha a (by simp)), List.map_cons, List.flatMap_cons]
  unfold openTag
  simp only [detab_append, e, detab_self (x := '<' :: n) (by simp [hn])]
  rfl

theorem detab_attrs {attrs : List (Str × Str)} (h : ∀ a ∈ attrs, a.1 ∈ attrNames ∧ '"' ∉ a.2 ∧ '<' ∉ a.2 ∧ '>' ∉ a.2) :
    ∀ a ∈ attrs.map (fun a => (a.1, detab a.2)), a.1 ∈ attrNames ∧ '"' ∉ a.2 ∧ '<' ∉ a.2 ∧ '>' ∉ a.2 := by
  intro a ha
  obtain ⟨b, hb, rfl⟩ := List.mem_map.mp ha
  obtain ⟨h1, h2, h3, h4⟩ := h b hb
  exact ⟨h1, fun hm => h2 (detab_mem (by decide) hm), fun hm => h3 (detab_mem (by decide) hm), fun hm => h4 (detab_mem (by decide) hm)⟩

theorem nested_detab {x : Str} (h : Nested x) : Nested (detab x) := by
  induction h with
  | text s h1 h2 => exact .text _ (fun h => h1 (detab_mem (by decide) h)) (fun h => h2 (detab_mem (by decide) h))
  | append a b _ _ ha hb => rw [detab_append]; exact .append _ _ ha hb
  | rule => exact .rule
  | void n attrs hn ha =>
    have hv : ∀ n ∈ voidNames, '\t' ∉ n := by decide
    rw [detab_openTag (hv n hn) fun a h => (ha a h).1]
    exact .void _ _ hn (detab_attrs ha)
  | elem n attrs x hn hv ha _ hx =>
    have ht : ∀ n ∈ elementNames, '\t' ∉ n := by decide
    rw [detab_append, detab_append, detab_openTag (ht n hn) fun a h => (ha a h).1,
      show detab (closeTag n) = closeTag n by
        unfold closeTag
        simp only [detab_append, detab_self (x := '<' :: '/' :: n) (by simp [ht n hn])]
        rfl]
    exact .elem _ _ _ hn hv (detab_attrs ha) hx

/-- Properly nested, apart from `k` block quotes still open. -/
def Open : Nat → Str → Prop
  | 0, x => Nested x
  | k + 1, x => ∃ a b, Open k a ∧ Nested b ∧ x = a ++ c!"<blockquote>" ++ b

theorem Open.append : ∀ {k : Nat} {x y : Str}, Open k x → Nested y → Open k (x ++ y)
  | 0, _, _, hx, hy => Nested.append _ _ hx hy
  | _ + 1, _, y, ⟨a, b, ha, hb, e⟩, hy => ⟨a, b ++ y, ha, .append _ _ hb hy, by rw [e]; simp⟩

theorem Open.close {k : Nat} {x : Str} (h : Open (k + 1) x) : Open k (x ++ c!"</blockquote>") := by
  obtain ⟨a, b, ha, hb, e⟩ := h
  have := ha.append (nested_elem (n := c!"blockquote") (by decide) (by decide) hb)
  rw [e]
  simpa [Smd.Spec.elem] using this

theorem Open.closes : ∀ {n k : Nat} {x : Str}, Open (k + n) x → Open k (x ++ copies n c!"</blockquote>")
  | 0, _, x, h => by simpa [copies] using h
  | n + 1, k, x, h => by
    have := Open.closes (n := n) (k := k) (Open.close (k := k + n) h)
    simpa [copies, List.replicate_succ] using this

theorem Open.closesLn : ∀ {n : Nat} {x : Str}, Open n x → Nested (x ++ copies n c!"</blockquote>\n")
  | 0, x, h => by
    have h : Nested x := h
    simpa [copies] using h
  | n + 1, x, h => by
    have := Open.closesLn (h.close.append nested_nl)
    simpa [copies, List.replicate_succ] using this

theorem Open.opens : ∀ {n k : Nat} {x : Str}, Open k x → Open (k + n) (x ++ copies n c!"<blockquote>\n")
  | 0, _, x, h => by simpa [copies] using h
  | n + 1, k, x, h => by
    have h1 : Open (k + 1) (x ++ c!"<blockquote>\n") := ⟨x, c!"\n", h, nested_nl, by simp⟩
    have := Open.opens (n := n) h1
    rw [show k + 1 + n = k + (n + 1) by omega] at this
    simpa [copies, List.replicate_succ] using this

theorem Open.move {q : Nat} (n : Nat) {x : Str} (h : Open q x) : Open n (x ++ quoteMove q n) := by
  unfold quoteMove
  split
  · next hn =>
    have : Open (n + (q - n)) x := by rw [Nat.add_sub_cancel' (Nat.le_of_lt hn)]; exact h
    exact this.closes
  · next hn =>
    have := h.opens (n := n - q)
    rw [Nat.add_sub_cancel' (Nat.le_of_not_lt hn)] at this
    exact this

theorem Open.quotes : ∀ {lines : List (QuoteLine × Str)} {q : Nat} {x : Str}, Open q x → (∀ l ∈ lines, Nested l.2) →
    Open (quoteEnd q lines) (x ++ quoteHtml q lines)
  | [], q, x, h, _ => by simpa [quoteEnd, quoteHtml] using h
  | l :: ls, q, x, h, hn => by
    have := Open.quotes (lines := ls) ((h.move l.1.level).append (hn l (by simp))) fun m hm => hn m (by simp [hm])
    rw [quoteEnd_cons]
    simpa [quoteHtml] using this

theorem nested_endLine {x : Str} (h : Nested x) : Nested (endLine x) := by
  unfold endLine
  split
  · exact h
  · exact .append _ _ h nested_nl

theorem nested_note (d : NoteDef) : Nested d.html := by
  have txt : ∀ s : Str, ('<' ∉ s ∧ '>' ∉ s) → Nested s := fun s h => .text s h.1 h.2
  have h1 := Nested.elem c!"a" [(c!"href", c!"#fnref:" ++ escape d.id), (c!"class", c!"reversefootnote"), (c!"role", c!"doc-backlink")] c!"↩"
    (by decide) (by decide) (by
      intro a ha
      simp only [List.mem_cons, List.not_mem_nil, or_false] at ha
      rcases ha with rfl | rfl | rfl
      · exact ⟨(by decide : c!"href" ∈ attrNames), Quotable.append ⟨by decide, by decide, by decide⟩ (quotable_escape d.id)⟩
      · decide
      · decide) (txt _ (by decide))
  have h2 := nested_elem (n := c!"p") (by decide) (by decide) (.append _ _ (nested_escape d.text) h1)
  have h3 := Nested.elem c!"li" [(c!"id", c!"fn:1"), (c!"role", c!"doc-endnote")] _ (by decide) (by decide) (by decide)
    (.append c!"\t\t\t" _ (txt _ (by decide)) (.append _ c!"\t\t" h2 (txt _ (by decide))))
  have := Nested.append c!"\t\t" _ (txt _ (by decide)) h3
  simpa [NoteDef.html, openTag, closeTag, attrText, Smd.Spec.elem] using this

theorem nested_notes (ds : List NoteDef) : Nested (notesHtml ds) := by
  have txt : ∀ s : Str, ('<' ∉ s ∧ '>' ∉ s) → Nested s := fun s h => .text s h.1 h.2
  have h1 := nested_elem (n := c!"ol") (by decide) (by decide)
    (.append c!"\n" _ nested_nl (.append _ c!"\t" (nested_flatMap NoteDef.html ds fun d _ => nested_note d) (txt _ (by decide))))
  have h2 := Nested.elem c!"div" [(c!"class", c!"footnotes"), (c!"role", c!"doc-endnotes")] _ (by decide) (by decide) (by decide)
    (.append c!"\n\t" _ (txt _ (by decide)) (.append _ _ h1 nested_nl))
  have := Nested.append _ _ h2 nested_nl
  simpa [notesHtml, openTag, closeTag, attrText, Smd.Spec.elem] using this

theorem nested_ending {R : Str → Str → Prop} {l : Ending} (hR : ∀ s x, R s x → Nested x) (h : l.Good R) : Nested l.html := by
  cases l with
  | none => exact nested_nil
  | bullets items =>
    have hi := nested_flatMap (fun i : Char × List Inline × Nat => c!"<li>\n" ++ (elem c!"p" (inlineHtml i.2.1) ++ c!"\n") ++ c!"</li>\n") items
      (fun i hi => nested_li (.append _ _ (nested_elem (by decide) (by decide) (nested_inlines (h.2.2 i hi).2.1)) nested_nl))
    have := Nested.append _ _ (nested_elem (n := c!"ul") (by decide) (by decide) (.append c!"\n" _ nested_nl hi)) nested_nl
    simpa [Ending.html, Smd.Spec.elem] using this
  | ordered items =>
    have hi := nested_flatMap (fun i : Char × Str × Nat => c!"<li>\n" ++ escape i.2.1 ++ c!"</li>\n") items
      (fun i hi => nested_li (nested_escape _))
    have := Nested.append _ _ (nested_elem (n := c!"ol") (by decide) (by decide) (.append c!"\n" _ nested_nl hi)) nested_nl
    simpa [Ending.html, Smd.Spec.elem] using this
  | tasks items =>
    have hi := nested_flatMap (fun i : Char × Char × Str × Nat => taskHtml (decide (i.2.1 ≠ ' ')) i.2.2.1) items
      (fun i hi => nested_task _ _)
    have := Nested.append _ _ (Nested.elem c!"ul" [(c!"class", c!"contains-task-list")] _ (by decide) (by decide) (by decide) hi) nested_nl
    simpa [Ending.html, openTag, closeTag, attrText] using this
  | quotes lines =>
    have h1 : Open 0 [] := nested_nil
    have := (h1.quotes (lines := lines) fun l hl => by
      obtain ⟨_, x, hx, e⟩ := h.2.2 l hl
      rw [e]
      exact nested_detab (hR _ _ hx)).closesLn
    simpa [Ending.html] using this
  | code n t =>
    have := nested_elem (n := c!"pre") (by decide) (by decide) (nested_elem (n := c!"code") (by decide) (by decide)
      (nested_endLine (nested_escape (codeShown t))))
    simpa [Ending.html, Smd.Spec.elem] using this
  | notes defs => exact nested_notes defs

theorem opened_close {l : Ending} (h : l.Spaced) : l.opened ++ l.close = l.html := by
  cases l <;> first | exact h.elim | simp [Ending.opened, Ending.close, Ending.html]

theorem nested_block {R : Str → Str → Prop} {b : Block} (hR : ∀ s x, R s x → Nested x) (h : b.Good R)
    (hl : ∀ l x y is, b ≠ .listed l x y is) : Nested b.html := by
  cases b with
  | para is => exact .append _ _ (nested_elem (by decide) (by decide) (nested_inlines h.1)) nested_nl
  | heading n is =>
    obtain ⟨h1, h6, hg, _⟩ := h
    refine .append _ _ (nested_elem ?_ ?_ (nested_inlines hg)) nested_nl
    · have : ∀ n ≤ 6, 1 ≤ n → 'h' :: dec n ∈ elementNames := by decide
      exact this n h6 h1
    · have : ∀ n ≤ 6, 'h' :: dec n ∉ voidNames := by decide
      exact this n h6
  | rule n c => exact .append c!"<hr />" _ .rule nested_nl
  | table t => exact nested_table h
  | image text target =>
    have hq : ∀ c ∈ afterColon target, c ∉ c!"\"<>" := fun c hc hx =>
      (h.2.1.chars c ((List.drop_suffix 1 _).trans (List.dropWhile_suffix _) |>.subset hc)).2.2 (by
        have : ∀ c ∈ c!"\"<>", c ∈ c!"%#[]!$'()*\\&@<>\"" := by decide
        exact this c hx)
    have hi : Nested (openTag c!"img" [(c!"src", afterColon target), (c!"alt", escape text), (c!"referrerpolicy", c!"no-referrer")]) := by
      refine .void _ _ (by decide) ?_
      intro a ha
      simp only [List.mem_cons, List.not_mem_nil, or_false] at ha
      rcases ha with rfl | rfl | rfl
      · exact ⟨(by decide : c!"src" ∈ attrNames), fun hm => hq _ hm (by decide), fun hm => hq _ hm (by decide), fun hm => hq _ hm (by decide)⟩
      · exact ⟨(by decide : c!"alt" ∈ attrNames), quotable_escape text⟩
      · decide
    have := nested_elem (n := c!"p") (by decide) (by decide) hi
    simpa [Smd.Spec.elem, openTag, attrText, Block.html] using this
  | details sum inner shown =>
    have h1 := nested_elem (n := c!"summary") (by decide) (by decide) (nested_escape sum)
    have h2 : Nested c!"\\\n\t\t\t\t\t\t\t n" := .text _ (by decide) (by decide)
    have := nested_elem (n := c!"details") (by decide) (by decide)
      (.append _ _ (.append _ _ (.append _ _ (.append _ _ nested_nl h1) nested_nl) (hR _ _ h.2.2.2)) h2)
    simpa [Smd.Spec.elem, Block.html] using this
  | quoted lines is =>
    have h1 : Open 0 [] := nested_nil
    have h2 := h1.quotes (lines := lines) fun l hl => by
      obtain ⟨_, x, hx, e⟩ := h.1.2.2 l hl
      rw [e]
      exact nested_detab (hR _ _ hx)
    rw [List.nil_append, ← Nat.zero_add (quoteEnd 0 lines)] at h2
    exact Nested.append _ _ (Open.closes (k := 0) h2) (.append _ _ (nested_elem (by decide) (by decide) (nested_inlines h.2.2.1)) nested_nl)
  | listed l x y is => exact absurd rfl (hl l x y is)
  | listedHeading l n is =>
    obtain ⟨hg, hs, h1, h6, hi, _⟩ := h
    have := nested_ending hR hg
    rw [← opened_close hs] at this
    refine .append _ _ this (.append _ _ (nested_elem (by decide) (by decide) (.append _ _ (nested_elem ?_ ?_ (nested_inlines hi)) nested_nl)) nested_nl)
    · have : ∀ n ≤ 6, 1 ≤ n → 'h' :: dec n ∈ elementNames := by decide
      exact this n h6 h1
    · have : ∀ n ≤ 6, 'h' :: dec n ∉ voidNames := by decide
      exact this n h6
  | listedRule l n c =>
    have := nested_ending hR h.1
    rw [← opened_close h.2.1] at this
    exact .append _ _ this (.append _ _ (nested_elem (by decide) (by decide) (.append c!"<hr />" _ .rule nested_nl)) nested_nl)
  | fenced lang body => exact nested_nil

theorem nested_blocks {R : Str → Str → Prop} (hR : ∀ s x, R s x → Nested x) : ∀ {bs : List (Block × Nat)}, DocGood R bs →
    (∀ b ∈ bs, ∀ l x y is, b.1 ≠ .listed l x y is) → Nested (docHtml bs)
  | [], _, _ => nested_nil
  | b :: bs, h, hl => by
    rw [docHtml, List.flatMap_cons]
    exact .append _ _ (nested_block hR (docGood_head h) (hl b (by simp))) (nested_blocks hR (docGood_tail h) fun c hc => hl c (by simp [hc]))

theorem doc_nested {R : Str → Str → Prop} {d : Doc} (hR : ∀ s x, R s x → Nested x) (h : d.Good R)
    (hl : ∀ b ∈ d.blocks, ∀ l x y is, b.1 ≠ .listed l x y is) : Nested d.html := by
  have h1 := nested_blocks hR h.blocks hl
  have h2 := nested_ending hR h.ending
  unfold Doc.html
  split
  · exact nested_endLine h1
  · exact .append _ _ (nested_endLine h1) (nested_notes _)
  · exact .append _ _ h1 h2

end Smd.Gfm
