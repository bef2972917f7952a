import Verif.Lemmas.Html
import Verif.Lemmas.Links
import Verif.Lemmas.Infix
import Verif.Props.Escape

/-! The pieces of HTML the parser writes are tags and text. -/

namespace Smd.Gfm
open Smd.Rs Smd.Spec

variable {q U : Prop}

theorem attr_chars : ∀ k ∈ attrNames, '<' ∉ k ∧ '\t' ∉ k := by decide

theorem safe_noLt : NoLt (SafeAttr q) := fun k _ h => ⟨(attr_chars k h.1).1, h.2.1⟩

theorem mem_replaceC {c d : Char} {r s : Str} (h : c ∈ replaceC d r s) : c ∈ s ∨ c ∈ r := by
  obtain ⟨x, hx, hc⟩ := List.mem_flatMap.mp h
  split at hc
  · exact .inr hc
  · simp at hc
    exact .inl (hc ▸ hx)

theorem not_mem_replaceC {c d : Char} {r s : Str} (h : c ∉ s) (hr : c ∉ r) : c ∉ replaceC d r s := fun hm =>
  (mem_replaceC hm).elim h hr

theorem takeWhile_replaceC {d : Char} {r : Str} (hr : ':' ∉ r) (hd : d ≠ ':') : ∀ s : Str,
    urlScheme (replaceC d r s) = replaceC d r (urlScheme s)
  | [] => rfl
  | c :: s => by
    have ih := takeWhile_replaceC hr hd s
    unfold urlScheme at *
    have e : replaceC d r (c :: s) = (if c = d then r else [c]) ++ replaceC d r s := rfl
    rw [e]
    by_cases hc : c = ':'
    · subst hc
      rw [if_neg (Ne.symm hd)]
      rfl
    · have hall : ∀ x ∈ (if c = d then r else [c]), (x != ':') = true := by
        intro x hx
        split at hx
        · simp; rintro rfl; exact hr hx
        · simp at hx; subst hx; simpa using hc
      rw [List.takeWhile_append_of_pos hall, ih, List.takeWhile_cons (a := c) (l := s)]
      have h2 : (c != ':') = true := by simpa using hc
      simp only [h2, if_true]
      rfl

theorem safeHref_tab {v : Str} (h : SafeHref v) : SafeHref (replaceC '\t' c!"  " v) := by
  rcases h with rfl | h | ⟨h1, h2, h3⟩
  · exact .inl rfl
  · cases v with
    | nil => cases h
    | cons c v =>
      simp at h
      subst h
      exact .inr (.inl rfl)
  · have ht : '\t' ∉ urlScheme v := fun hm => by
      have := h2 _ hm
      revert this
      decide
    refine .inr (.inr ⟨?_, ?_⟩)
    · refine List.mem_flatMap.mpr ⟨_, h1, ?_⟩
      simp
    · rw [takeWhile_replaceC (by decide) (by decide), replaceC_id ht]
      exact ⟨h2, h3⟩

theorem safe_tab : TabOk (SafeAttr q) := by
  intro k v h
  exact ⟨(attr_chars k h.1).2, h.1, not_mem_replaceC h.2.1 (by decide), fun hq => not_mem_replaceC (h.2.2.1 hq) (by decide),
    fun hk => safeHref_tab (h.2.2.2 hk)⟩

theorem san_lt (x : Str) : '<' ∉ sanitize x := C03_no_delimiters x '<' (by decide)
theorem san_quote (x : Str) : '"' ∉ sanitize x := C03_no_delimiters x '"' (by decide)

theorem Bal.san (x : Str) : Bal (SafeAttr q) U (sanitize x) := .text (san_lt x)

/-- A constant attribute. -/
theorem safe_const {k v : Str} (h : k ∈ attrNames ∧ '<' ∉ v ∧ '"' ∉ v ∧ k ≠ c!"href") : SafeAttr q k v :=
  ⟨h.1, h.2.1, fun _ => h.2.2.1, fun hk => absurd hk h.2.2.2⟩

/-- An attribute that ends with an escaped text. -/
theorem safe_san {k p : Str} (x : Str) (h : k ∈ attrNames ∧ '<' ∉ p ∧ '"' ∉ p) (hj : k ≠ c!"href" ∨ p.head? = some '#') :
    SafeAttr q k (p ++ sanitize x) := by
  refine ⟨h.1, by simp [h.2.1, san_lt], fun _ => by simp [h.2.2, san_quote], fun hk => ?_⟩
  rcases hj with hj | hj
  · exact absurd hk hj
  · cases p with
    | nil => cases hj
    | cons c p =>
      simp at hj
      subst hj
      exact .inr (.inl rfl)

theorem attrs2 {A : Str → Str → Prop} {k1 v1 k2 v2 : Str} (h1 : A k1 v1) (h2 : A k2 v2) :
    ∀ a ∈ [(k1, v1), (k2, v2)], A a.1 a.2 :=
  List.forall_mem_cons.mpr ⟨h1, List.forall_mem_cons.mpr ⟨h2, fun _ h => nomatch h⟩⟩

theorem attrs3 {A : Str → Str → Prop} {k1 v1 k2 v2 k3 v3 : Str} (h1 : A k1 v1) (h2 : A k2 v2) (h3 : A k3 v3) :
    ∀ a ∈ [(k1, v1), (k2, v2), (k3, v3)], A a.1 a.2 :=
  List.forall_mem_cons.mpr ⟨h1, attrs2 h2 h3⟩

/-- Close an element around balanced content, written as in the code. -/
theorem Bal.wrap {m x o c : Str} {attrs : List (Str × Str)} (hm : m ∈ elementNames) (ha : ∀ a ∈ attrs, SafeAttr q a.1 a.2)
    (ho : o = openTag m attrs) (hc : c = closeTag m) (hx : Bal (SafeAttr q) U x) : Bal (SafeAttr q) U (o ++ x ++ c) := by
  subst ho hc
  rw [List.append_assoc]
  exact Bal.elem safe_noLt hm ha hx

/-- The same for elements without attributes. -/
theorem Bal.wrap0 {m x : Str} (o c : Str) (hm : m ∈ elementNames) (ho : o = openTag m []) (hc : c = closeTag m)
    (hx : Bal (SafeAttr q) U x) : Bal (SafeAttr q) U (o ++ x ++ c) := Bal.wrap hm (by simp) ho hc hx

theorem Bal.app {a b : Str} (ha : Bal (SafeAttr q) U a) (hb : Bal (SafeAttr q) U b) : Bal (SafeAttr q) U (a ++ b) :=
  Bal.append safe_noLt ha hb

theorem Bal.flat {α : Type} {l : List α} {f : α → Str} (h : ∀ x ∈ l, Bal (SafeAttr q) U (f x)) :
    Bal (SafeAttr q) U (l.flatMap f) := by
  induction l with
  | nil => exact .nil
  | cons x l ih => exact Bal.app (h x (by simp)) (ih fun y hy => h y (by simp [hy]))

/-! ### The output of single tokens -/

theorem dec_no_lt (n : Nat) : '<' ∉ dec n := by
  unfold dec
  intro h
  have := Nat.isDigit_of_mem_toDigits (b := 10) (by decide) (by decide) h
  revert this
  decide

theorem supTag_bal (x : Str) (n : Nat) : Bal (SafeAttr q) U (supTag (sanitize x) n) := by
  have e : supTag (sanitize x) n =
      openTag c!"sup" [(c!"id", c!"fnref:" ++ sanitize x), (c!"role", c!"doc-noteref")] ++
      (openTag c!"a" [(c!"href", c!"#fn:" ++ sanitize x), (c!"class", c!"footnote"), (c!"rel", c!"footnote")] ++
        dec n ++ closeTag c!"a") ++ closeTag c!"sup" := by
    simp [supTag, openTag, closeTag, attrText]
  rw [e]
  refine Bal.wrap (by decide) ?_ rfl rfl (Bal.wrap (by decide) ?_ rfl rfl (.text (dec_no_lt n)))
  · exact attrs2 (safe_san x (by decide) (.inl (by decide))) (safe_const (by decide))
  · exact attrs3 (safe_san x (by decide) (.inr rfl)) (safe_const (by decide)) (safe_const (by decide))

theorem footRefs_bal : ∀ (toks : List Str) (n : Nat), (∀ t ∈ toks, '<' ∉ t) → Bal (SafeAttr q) U (footRefs n toks)
  | [], _, _ => .nil
  | t :: ts, n, h => by
    unfold footRefs
    split
    · exact Bal.app (supTag_bal _ n) (footRefs_bal ts (n + 1) fun x hx => h x (by simp [hx]))
    · exact Bal.app (.text (h t (by simp))) (footRefs_bal ts n fun x hx => h x (by simp [hx]))

theorem plainTrim_prefix (t : Str) : plainTrim t <+: t := by
  unfold plainTrim
  split
  · exact List.prefix_refl _
  · split
    · exact trimEndStr_prefix _ _
    · exact List.prefix_refl _

theorem plainOut_bal {x : Str} (h : ¬ c!"[^" <:+: x ∨ '<' ∉ x) : Bal (SafeAttr q) U (plainOut x) := by
  unfold plainOut
  simp only
  split
  · next hc =>
    simp only [Bool.and_eq_true] at hc
    have hin := contains_infix (by simp) hc.1
    rcases h with h | h
    · exact absurd (hin.trans (plainTrim_prefix x).isInfix) h
    · refine footRefs_bal _ _ fun t ht hm => h ?_
      exact (plainTrim_prefix x).subset ((splitStr_infix _ _ t ht).subset hm)
  · exact Bal.san _

theorem headerOut_bal {l : Nat} {t : Str} (h1 : 1 ≤ l) (h6 : l ≤ 6) (ht : Bal (SafeAttr q) U t) :
    Bal (SafeAttr q) U (headerOut l t none) := by
  have key : ∀ m : Str, m ∈ elementNames → Bal (SafeAttr q) U (openTag m [] ++ t ++ closeTag m ++ c!"\n") :=
    fun m hm => Bal.app (Bal.wrap hm (by simp) rfl rfl ht) (.text (by decide))
  have hd : ∀ l : Fin 7, 1 ≤ l.val → ('h' :: dec l.val) ∈ elementNames := by decide
  have e : headerOut l t none = openTag ('h' :: dec l) [] ++ t ++ closeTag ('h' :: dec l) ++ c!"\n" := by
    simp [headerOut, openTag, closeTag]
  rw [e]
  exact key _ (hd ⟨l, by omega⟩ h1)

theorem imageOut_bal {l t : Str} (hl : '<' ∉ l ∧ (q → '"' ∉ l)) : Bal (SafeAttr q) U (imageOut l (some t)) := by
  have hal : SafeAttr q c!"alt" (sanitize t) := by
    have := safe_san (q := q) (k := c!"alt") (p := []) t (by decide) (.inl (by decide))
    rwa [List.nil_append] at this
  unfold imageOut
  simp only
  split
  · have e : c!"<p><img src=\"data:,\" alt=\"" ++ sanitize t ++ c!"\"></p>" =
        openTag c!"p" [] ++ openTag c!"img" [(c!"src", c!"data:,"), (c!"alt", sanitize t)] ++ closeTag c!"p" := by
      simp [openTag, closeTag, attrText]
    rw [e]
    refine Bal.wrap (by decide) (by simp) rfl rfl (Bal.void safe_noLt (by decide) (by decide) ?_)
    exact attrs2 (safe_const (by decide)) hal
  · have e : c!"<p><img src=\"" ++ l ++ c!"\" alt=\"" ++ sanitize t ++ c!"\" referrerpolicy=\"no-referrer\"></p>" =
        openTag c!"p" [] ++
          openTag c!"img" [(c!"src", l), (c!"alt", sanitize t), (c!"referrerpolicy", c!"no-referrer")] ++
          closeTag c!"p" := by
      simp [openTag, closeTag, attrText]
    rw [e]
    refine Bal.wrap (by decide) (by simp) rfl rfl (Bal.void safe_noLt (by decide) (by decide) ?_)
    exact attrs3 ⟨by decide, hl.1, hl.2, fun h => absurd h (by decide)⟩ hal (safe_const (by decide))

theorem linkOut_bal {u : ValidURL} {t : Str} {hover : Option Str} (hu : SafeAttr q c!"href" u.display)
    (hh : ∀ x, hover = some x → '<' ∉ x) : Bal (SafeAttr q) U (linkOut u (some t) hover) := by
  cases hover with
  | none =>
    have e : linkOut u (some t) none = openTag c!"a" [(c!"href", u.display)] ++ sanitize t ++ closeTag c!"a" := by
      simp [linkOut, openTag, closeTag, attrText]
    rw [e]
    refine Bal.wrap (by decide) ?_ rfl rfl (Bal.san t)
    intro a ha
    simp at ha
    subst ha
    exact hu
  | some ht =>
    have e : linkOut u (some t) (some ht) = c!"<a href=>" ++
        ((c!"\"" ++ u.display ++ c!"\" title=\"" ++ ht ++ c!"\">" ++ sanitize t) ++ closeTag c!"a") := by
      simp [linkOut, closeTag]
    rw [e]
    have hx : Bal (SafeAttr q) U (c!"\"" ++ u.display ++ c!"\" title=\"" ++ ht ++ c!"\">" ++ sanitize t) := by
      refine .text ?_
      simp [hu.2.1, hh ht rfl, san_lt]
    exact (Off.append safe_noLt Off.emptyHref (Off.append safe_noLt hx (Off.closing (by decide)))).cast (by
      intro n _ _; split <;> simp)

theorem autoOut_bal {u : ValidURL} (hu : SafeAttr q c!"href" u.display) (hf : '<' ∉ u.fmtUnsafe) :
    Bal (SafeAttr q) U (linkOut u none none) := by
  have e : linkOut u none none = openTag c!"a" [(c!"href", u.display)] ++ u.fmtUnsafe ++ closeTag c!"a" := by
    simp [linkOut, openTag, closeTag, attrText]
  rw [e]
  refine Bal.wrap (by decide) ?_ rfl rfl (.text hf)
  intro a ha
  simp at ha
  subst ha
  exact hu

theorem taskOut_bal (b : TaskBox) (t : Str) : Bal (SafeAttr q) U (taskOut b t) := by
  have hli : ∀ a ∈ [(c!"class", c!"task-list-item")], SafeAttr q a.1 a.2 := by
    intro a ha
    simp at ha
    subst ha
    exact safe_const (by decide)
  cases b with
  | checked =>
    have e : taskOut .checked t = openTag c!"li" [(c!"class", c!"task-list-item")] ++
        (openTag c!"input" [(c!"type", c!"checkbox"), (c!"class", c!"task-list-item-checkbox"), (c!"checked", [])] ++
          sanitize t) ++ closeTag c!"li" := by
      simp [taskOut, openTag, closeTag, attrText]
    rw [e]
    refine Bal.wrap (by decide) hli rfl rfl (Bal.app (Bal.void safe_noLt (by decide) (by decide) ?_) (Bal.san t))
    intro a ha
    simp at ha
    rcases ha with rfl | rfl | rfl <;> exact safe_const (by decide)
  | unchecked =>
    have e : taskOut .unchecked t = openTag c!"li" [(c!"class", c!"task-list-item")] ++
        (openTag c!"input" [(c!"type", c!"checkbox"), (c!"class", c!"task-list-item-checkbox")] ++
          sanitize t) ++ closeTag c!"li" := by
      simp [taskOut, openTag, closeTag, attrText]
    rw [e]
    refine Bal.wrap (by decide) hli rfl rfl (Bal.app (Bal.void safe_noLt (by decide) (by decide) ?_) (Bal.san t))
    intro a ha
    simp at ha
    rcases ha with rfl | rfl <;> exact safe_const (by decide)

theorem align_ok (al : Alignment) : SafeAttr q c!"style" (c!"text-align: " ++ al.display) := by
  cases al <;> exact safe_const (by decide)

theorem headCells_bal (hs : List (Alignment × Str)) : Bal (SafeAttr q) U (headCells hs) := by
  refine Bal.flat fun h _ => ?_
  have e : c!"\t\t<th style=\"text-align: " ++ h.1.display ++ c!"\">" ++ sanitize h.2 ++ c!"</th>" =
      c!"\t\t" ++ (openTag c!"th" [(c!"style", c!"text-align: " ++ h.1.display)] ++ sanitize h.2 ++ closeTag c!"th") := by
    simp [openTag, closeTag, attrText]
  rw [e]
  refine Bal.app (.text (by decide)) (Bal.wrap (by decide) ?_ rfl rfl (Bal.san _))
  intro a ha
  simp at ha
  subst ha
  exact align_ok _

theorem cell_bal {al : Alignment} {txt : Str} (h : Bal (SafeAttr q) U txt) :
    Bal (SafeAttr q) U (c!"\n\t\t<td style=\"text-align: " ++ al.display ++ c!"\">" ++ txt ++ c!"</td>") := by
  have e : c!"\n\t\t<td style=\"text-align: " ++ al.display ++ c!"\">" ++ txt ++ c!"</td>" =
      c!"\n\t\t" ++ (openTag c!"td" [(c!"style", c!"text-align: " ++ al.display)] ++ txt ++ closeTag c!"td") := by
    simp [openTag, closeTag, attrText]
  rw [e]
  refine Bal.app (.text (by decide)) (Bal.wrap (by decide) ?_ rfl rfl h)
  intro a ha
  simp at ha
  subst ha
  exact align_ok _

theorem row_bal {b : Str} (h : Bal (SafeAttr q) U b) : Bal (SafeAttr q) U (c!"\n\t<tr>" ++ b ++ c!"\n\t</tr>") := by
  have e : c!"\n\t<tr>" ++ b ++ c!"\n\t</tr>" = c!"\n\t" ++ (openTag c!"tr" [] ++ (b ++ c!"\n\t") ++ closeTag c!"tr") := by
    simp [openTag, closeTag]
  rw [e]
  exact Bal.app (.text (by decide)) (Bal.wrap (by decide) (by simp) rfl rfl (Bal.app h (.text (by decide))))

theorem table_bal {hd b : Str} (h1 : Bal (SafeAttr q) U hd) (h2 : Bal (SafeAttr q) U b) :
    Bal (SafeAttr q) U (c!"<table class=\"table table-bordered\">\n\t<thead>\n\t<tr>\n" ++ hd ++
          c!"\t</tr>\n\t</thead>\n\t<tbody>" ++ b ++ c!"\n\t</tbody>\n</table>") := by
  have e : c!"<table class=\"table table-bordered\">\n\t<thead>\n\t<tr>\n" ++ hd ++
          c!"\t</tr>\n\t</thead>\n\t<tbody>" ++ b ++ c!"\n\t</tbody>\n</table>" =
      openTag c!"table" [(c!"class", c!"table table-bordered")] ++
        (c!"\n\t" ++ (openTag c!"thead" [] ++
          (c!"\n\t" ++ (openTag c!"tr" [] ++ (c!"\n" ++ (hd ++ c!"\t")) ++ closeTag c!"tr") ++ c!"\n\t") ++
          closeTag c!"thead") ++ c!"\n\t" ++
        (openTag c!"tbody" [] ++ (b ++ c!"\n\t") ++ closeTag c!"tbody") ++ c!"\n") ++ closeTag c!"table" := by
    simp [openTag, closeTag, attrText]
  rw [e]
  have tx : ∀ s : Str, '<' ∉ s → Bal (SafeAttr q) U s := fun s h => .text h
  refine Bal.wrap (by decide) ?_ rfl rfl ?_
  · intro a ha
    simp at ha
    subst ha
    exact safe_const (by decide)
  · refine Bal.app (Bal.app (Bal.app (Bal.app (tx _ (by decide)) (Bal.wrap (by decide) (by simp) rfl rfl ?_)) (tx _ (by decide)))
      (Bal.wrap (by decide) (by simp) rfl rfl (Bal.app h2 (tx _ (by decide))))) (tx _ (by decide))
    exact Bal.app (Bal.app (tx _ (by decide)) (Bal.wrap (by decide) (by simp) rfl rfl
      (Bal.app (tx _ (by decide)) (Bal.app h1 (tx _ (by decide)))))) (tx _ (by decide))

theorem detailOut_bal {s x : Str} (h : Bal (SafeAttr q) U x) : Bal (SafeAttr q) U (detailOut s x) := by
  have e : detailOut s x = openTag c!"details" [] ++
      (c!"\n" ++ (openTag c!"summary" [] ++ sanitize s ++ closeTag c!"summary") ++ c!"\n" ++ x ++ c!"\\\n\t\t\t\t\t\t\t n") ++
      closeTag c!"details" := by
    simp [detailOut, openTag, closeTag]
  rw [e]
  have tx : ∀ s : Str, '<' ∉ s → Bal (SafeAttr q) U s := fun s h => .text h
  exact Bal.wrap (by decide) (by simp) rfl rfl (Bal.app (Bal.app (Bal.app (Bal.app (tx _ (by decide))
    (Bal.wrap (by decide) (by simp) rfl rfl (Bal.san _))) (tx _ (by decide))) h) (tx _ (by decide)))

theorem noteOut_bal (n : Str × Str) : Bal (SafeAttr q) U (noteOut n) := by
  have e : noteOut n = c!"\t\t" ++ (openTag c!"li" [(c!"id", c!"fn:1"), (c!"role", c!"doc-endnote")] ++
      (c!"\t\t\t" ++ (openTag c!"p" [] ++ (sanitize n.2 ++
        (openTag c!"a" [(c!"href", c!"#fnref:" ++ sanitize n.1), (c!"class", c!"reversefootnote"),
          (c!"role", c!"doc-backlink")] ++ c!"↩" ++ closeTag c!"a")) ++ closeTag c!"p") ++ c!"\t\t") ++ closeTag c!"li") := by
    simp [noteOut, openTag, closeTag, attrText]
  rw [e]
  have tx : ∀ s : Str, '<' ∉ s → Bal (SafeAttr q) U s := fun s h => .text h
  refine Bal.app (tx _ (by decide)) (Bal.wrap (by decide) ?_ rfl rfl (Bal.app (Bal.app (tx _ (by decide))
    (Bal.wrap (by decide) (by simp) rfl rfl (Bal.app (Bal.san _) (Bal.wrap (by decide) ?_ rfl rfl (tx _ (by decide))))))
    (tx _ (by decide))))
  · intro a ha
    simp at ha
    rcases ha with rfl | rfl <;> exact safe_const (by decide)
  · exact attrs3 (safe_san _ (by decide) (.inr rfl)) (safe_const (by decide)) (safe_const (by decide))

theorem notes_bal (l : List (Str × Str)) : Bal (SafeAttr q) U (c!"<div class=\"footnotes\" role=\"doc-endnotes\">\n" ++
    c!"\t<ol>\n" ++ l.flatMap noteOut ++ c!"\t</ol>\n" ++ c!"</div>\n") := by
  have e : c!"<div class=\"footnotes\" role=\"doc-endnotes\">\n" ++ c!"\t<ol>\n" ++ l.flatMap noteOut ++ c!"\t</ol>\n" ++
      c!"</div>\n" = openTag c!"div" [(c!"class", c!"footnotes"), (c!"role", c!"doc-endnotes")] ++
        (c!"\n\t" ++ (openTag c!"ol" [] ++ (c!"\n" ++ l.flatMap noteOut ++ c!"\t") ++ closeTag c!"ol") ++ c!"\n") ++
        closeTag c!"div" ++ c!"\n" := by
    simp [openTag, closeTag, attrText]
  rw [e]
  have tx : ∀ s : Str, '<' ∉ s → Bal (SafeAttr q) U s := fun s h => .text h
  refine Bal.app (Bal.wrap (by decide) ?_ rfl rfl (Bal.app (Bal.app (tx _ (by decide)) (Bal.wrap (by decide) (by simp) rfl rfl
    (Bal.app (Bal.app (tx _ (by decide)) (Bal.flat fun n _ => noteOut_bal n)) (tx _ (by decide))))) (tx _ (by decide))))
    (tx _ (by decide))
  intro a ha
  simp at ha
  rcases ha with rfl | rfl <;> exact safe_const (by decide)

end Smd.Gfm
