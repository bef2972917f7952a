import Verif.Lemmas.Safe
import Verif.Lemmas.Scan
import Verif.Spec.Elements

/-! The elements of the output have their signs in the document. -/

namespace Smd.Gfm
open Smd.Rs Smd.Spec

/-! ### Tags with names from a set -/

/-- The inside of a tag whose name is in `N`. -/
def TagText (N : Str → Prop) (y : Str) : Prop := ∃ n, N n ∧ (y = n ∨ (∃ m, y = n ++ ' ' :: m) ∨ y = '/' :: n)

/-- Every `<` begins a tag whose name is in `N`. -/
def Only (N : Str → Prop) (x : Str) : Prop :=
  ∀ a b, x = a ++ '<' :: b → ∃ y r, b = y ++ '>' :: r ∧ '<' ∉ y ∧ TagText N y

variable {N : Str → Prop}

theorem Only.text {x : Str} (h : '<' ∉ x) : Only N x := by
  rintro a b rfl
  simp at h

theorem Only.nil : Only N [] := .text (by simp)

theorem Only.suffix {a x : Str} (h : Only N (a ++ x)) : Only N x := by
  rintro b c rfl
  exact h (a ++ b) c (by simp)

theorem Only.of_suffix {y x : Str} (h : Only N y) (e : x <:+ y) : Only N x := by
  obtain ⟨a, rfl⟩ := e
  exact h.suffix

/-- Where a character stands in two texts one after the other. -/
theorem split_at_char {x y a b : Str} {c : Char} (e : x ++ y = a ++ c :: b) :
    (∃ b', x = a ++ c :: b' ∧ b = b' ++ y) ∨ ∃ a', y = a' ++ c :: b ∧ a = x ++ a' := by
  rcases List.append_eq_append_iff.mp e with ⟨u, h1, h2⟩ | ⟨u, h1, h2⟩
  · exact .inr ⟨u, h2, h1⟩
  · cases u with
    | nil => exact .inr ⟨[], by simpa using h2.symm, by simpa using h1.symm⟩
    | cons d u =>
      simp at h2
      obtain ⟨rfl, rfl⟩ := h2
      exact .inl ⟨u, h1, rfl⟩

theorem Only.append {x y : Str} (hx : Only N x) (hy : Only N y) : Only N (x ++ y) := by
  intro a b e
  rcases split_at_char e with ⟨b', e1, rfl⟩ | ⟨a', e1, _⟩
  · obtain ⟨z, r, rfl, h⟩ := hx a b' e1
    exact ⟨z, r ++ y, by simp, h⟩
  · exact hy a' b e1

theorem Only.tag {y : Str} (hy : '<' ∉ y) (ht : TagText N y) : Only N ('<' :: (y ++ c!">")) := by
  intro a b e
  cases a with
  | nil =>
    simp at e
    exact ⟨y, [], e.symm, hy, ht⟩
  | cons c a =>
    simp at e
    exfalso
    have : '<' ∈ y ++ ['>'] := by rw [e.2]; simp
    simp [hy] at this

/-- Cutting off a text without `>`. -/
theorem Only.cut {x t : Str} (h : Only N (x ++ t)) (ht : '>' ∉ t) : Only N x := by
  rintro a b rfl
  obtain ⟨y, r, e, hy⟩ := h a (b ++ t) (by simp)
  rcases split_at_char e with ⟨b', e1, _⟩ | ⟨a', e1, _⟩
  · exact ⟨y, b', e1, hy⟩
  · exact absurd (by rw [e1]; simp) ht

/-- Cutting at a tag. -/
theorem Only.cut_lt {x t : Str} (h : Only N (x ++ '<' :: t)) : Only N x := by
  rintro a b rfl
  obtain ⟨y, r, e, hy⟩ := h a (b ++ '<' :: t) (by simp)
  rcases split_at_char e with ⟨b', e1, _⟩ | ⟨a', e1, e2⟩
  · exact ⟨y, b', e1, hy⟩
  · cases a' with
    | nil => simp at e1
    | cons c a' =>
      simp at e1
      exact absurd (by rw [e2, ← e1.1]; simp) hy.1

theorem Only.flat {α : Type} {l : List α} {f : α → Str} (h : ∀ x ∈ l, Only N (f x)) : Only N (l.flatMap f) := by
  induction l with
  | nil => exact .nil
  | cons x l ih => exact (h x (by simp)).append (ih fun y hy => h y (by simp [hy]))

theorem Only.rep {x : Str} (h : Only N x) : ∀ n, Only N (rep n x)
  | 0 => .nil
  | n + 1 => h.append (Only.rep h n)

theorem Only.mono {N' : Str → Prop} {x : Str} (h : Only N x) (hn : ∀ n, N n → N' n) : Only N' x := by
  intro a b e
  obtain ⟨y, r, h1, h2, n, h3, h4⟩ := h a b e
  exact ⟨y, r, h1, h2, n, hn n h3, h4⟩

/-- A check for constant texts. -/
def tagCheck (names : List Str) (b : Str) : Bool :=
  b.contains '>' && !(b.takeWhile (· != '>')).contains '<' &&
    names.any fun n => b.takeWhile (· != '>') == n || (n ++ c!" ").isPrefixOf (b.takeWhile (· != '>')) || b.takeWhile (· != '>') == '/' :: n

def onlyCheck (names : List Str) : Str → Bool
  | [] => true
  | c :: b => (c != '<' || tagCheck names b) && onlyCheck names b

theorem tagCheck_spec {names : List Str} {b : Str} (h : tagCheck names b = true) (hn : ∀ n ∈ names, N n) :
    ∃ y r, b = y ++ '>' :: r ∧ '<' ∉ y ∧ TagText N y := by
  simp only [tagCheck, Bool.and_eq_true, List.contains_eq_mem, decide_eq_true_eq, Bool.not_eq_true', decide_eq_false_iff_not,
    List.any_eq_true, Bool.or_eq_true, beq_iff_eq] at h
  obtain ⟨⟨h1, h2⟩, n, h3, h4⟩ := h
  refine ⟨b.takeWhile (· != '>'), (b.dropWhile (· != '>')).tail, ?_, h2, n, hn n h3, ?_⟩
  · have hs := split_while (· != '>') b
    conv => lhs; rw [← hs]
    congr 1
    cases hd : b.dropWhile (· != '>') with
    | nil =>
      exfalso
      rw [hd, List.append_nil] at hs
      rw [← hs] at h1
      have := mem_takeWhile_true _ _ _ h1
      simp at this
    | cons c r =>
      have := List.head_dropWhile_not (p := (· != '>')) (l := b) (by rw [hd]; simp)
      simp only [hd, List.head_cons] at this
      simp at this
      simp [this]
  · rcases h4 with (h4 | h4) | h4
    · exact .inl h4
    · obtain ⟨m, hm⟩ := List.isPrefixOf_iff_prefix.mp h4
      exact .inr (.inl ⟨m, by rw [← hm]; simp⟩)
    · exact .inr (.inr h4)

theorem Only.const {names : List Str} {x : Str} (h : onlyCheck names x = true) (hn : ∀ n ∈ names, N n) : Only N x := by
  intro a
  induction a generalizing x with
  | nil =>
    rintro b rfl
    simp [onlyCheck] at h
    exact tagCheck_spec h.1 hn
  | cons c a ih =>
    rintro b rfl
    simp only [List.cons_append, onlyCheck, Bool.and_eq_true] at h
    exact ih h.2 b rfl

/-- An opening tag with attributes. -/
theorem Only.opening {n m : Str} (hn : N n) (h : '<' ∉ n ++ ' ' :: m) : Only N ('<' :: ((n ++ ' ' :: m) ++ c!">")) :=
  .tag h ⟨n, hn, .inr (.inl ⟨m, rfl⟩)⟩

/-! ### Trimming and replacing -/

theorem Only.trimEnd {x : Str} (h : Only N x) : Only N (trimEndP isWs x) := by
  induction hn : x.length using Nat.strongRecOn generalizing x with
  | ind n ih =>
    rcases List.eq_nil_or_concat x with rfl | ⟨t, c, rfl⟩
    · exact h
    · rw [List.concat_eq_append] at *
      rw [trimEndP_snoc]
      split
      · next hc => exact ih t.length (by simp at hn; omega) (h.cut (by simpa using (ws_not_angle hc).2.symm)) rfl
      · exact h

theorem Only.trim {x : Str} (h : Only N x) : Only N (trim x) := (h.of_suffix (trimStartP_suffix isWs x)).trimEnd

theorem Only.headingPost {x : Str} (h : Only N x) : Only N (headingPost x) := by
  unfold Gfm.headingPost
  refine Only.trim ?_
  cases h1 : stripPrefix c!"<p>" x with
  | none => exact .nil
  | some y =>
    simp only [Option.getD_some]
    cases h2 : stripSuffix c!"</p>\n" y with
    | none => exact .nil
    | some z =>
      rw [stripPrefix_some h1, stripSuffix_some h2] at h
      exact Only.cut_lt (t := c!"/p>\n") h.suffix

/-- The name of a tag without attributes is in the set. -/
theorem Only.name (hN : ∀ n, N n → '>' ∉ n) {n v : Str} (h : Only N ('<' :: (n ++ '>' :: v))) (h1 : '>' ∉ n) (h2 : ' ' ∉ n)
    (h3 : n.head? ≠ some '/' ∧ n ≠ []) : N n := by
  obtain ⟨y, r, e, -, k, hk, hy⟩ := h [] _ rfl
  have hk' := hN k hk
  rcases hy with rfl | ⟨m, rfl⟩ | rfl
  · rcases split_at_char e with ⟨b', rfl, _⟩ | ⟨a', e1, rfl⟩
    · simp at h1
    · cases a' with
      | nil => simpa using hk
      | cons c a' =>
        simp at e1
        simp [← e1.1] at hk'
  · rw [List.append_assoc, List.cons_append] at e
    rcases split_at_char e with ⟨b', rfl, _⟩ | ⟨a', e1, rfl⟩
    · simp at h2
    · cases a' with
      | nil => simp at e1
      | cons c a' =>
        simp at e1
        simp [← e1.1] at hk'
  · cases n with
    | nil => exact absurd rfl h3.2
    | cons c n =>
      simp at e h3
      exact absurd e.1 h3

/-- The change of code in list entries. -/
theorem Only.pad (hN : ∀ n, N n → '>' ∉ n) {x : Str} (h : Only N x) : Only N (replaceStr c!"<pre><code>" c!"<pre><code>  " x) := by
  induction hn : x.length using Nat.strongRecOn generalizing x with
  | ind n ih =>
    cases x with
    | nil => exact .nil
    | cons c x =>
      by_cases hp : c!"<pre><code>" <+: c :: x
      · obtain ⟨u, hu⟩ := hp
        rw [← hu] at h hn ⊢
        rw [replaceStr_match _ _ (by simp)]
        refine Only.append ?_ (ih u.length (by simp at hn; omega) h.suffix rfl)
        have h1 := h.name hN (n := c!"pre") (v := c!"<code>" ++ u) (by decide) (by decide) (by decide)
        have h2 := (Only.suffix (a := c!"<pre>") h).name hN (n := c!"code") (v := u) (by decide) (by decide) (by decide)
        exact .const (names := [c!"pre", c!"code"]) (by decide) (by simp [h1, h2])
      · rw [replaceStr_nomatch _ hp]
        by_cases hc : c = '<'
        · subst hc
          obtain ⟨y, r, rfl, hy, ht⟩ := h [] x rfl
          have e : y ++ '>' :: r = (y ++ c!">") ++ r := by simp
          rw [e, replaceStr_pass _ rfl _ (by simp [hy])]
          refine Only.append (x := '<' :: (y ++ c!">")) (.tag hy ht) (ih r.length (by simp at hn; omega) ?_ rfl)
          exact Only.suffix (a := '<' :: (y ++ c!">")) (by simpa using h)
        · exact Only.append (x := [c]) (.text (by simpa using Ne.symm hc)) (ih x.length (by simp at hn; omega) (Only.suffix (a := [c]) h) rfl)

/-- The change of tabs in quotes. -/
theorem Only.tabs (hT : ∀ n, N n → '\t' ∉ n) {x : Str} (h : Only N x) : Only N (replaceStr c!"\t" c!"  " x) := by
  rw [replaceStr_char]
  induction hn : x.length using Nat.strongRecOn generalizing x with
  | ind n ih =>
    cases x with
    | nil => exact .nil
    | cons c x =>
      rw [show c :: x = [c] ++ x from rfl, replaceC_append]
      by_cases hc : c = '<'
      · subst hc
        obtain ⟨y, r, rfl, hy, n', hn', ht⟩ := h [] x rfl
        have e : replaceC '\t' c!"  " c!"<" ++ replaceC '\t' c!"  " (y ++ '>' :: r) =
            '<' :: (replaceC '\t' c!"  " y ++ c!">") ++ replaceC '\t' c!"  " r := by
          rw [show y ++ '>' :: r = (y ++ c!">") ++ r by simp, replaceC_append, replaceC_append]
          rfl
        rw [e]
        refine Only.append (.tag (not_mem_replaceC hy (by decide)) ⟨n', hn', ?_⟩) (ih r.length (by simp at hn; omega) ?_ rfl)
        · have e1 := replaceC_id (r := c!"  ") (hT n' hn')
          rcases ht with rfl | ⟨m, rfl⟩ | rfl
          · exact .inl e1
          · refine .inr (.inl ⟨replaceC '\t' c!"  " m, ?_⟩)
            rw [replaceC_append, e1]
            rfl
          · refine .inr (.inr ?_)
            rw [show '/' :: n' = c!"/" ++ n' from rfl, replaceC_append, e1]
            rfl
        · exact Only.suffix (a := '<' :: (y ++ c!">")) (by simpa using h)
      · refine Only.append (.text (not_mem_replaceC (by simpa using Ne.symm hc) (by decide))) (ih x.length (by simp at hn; omega) (Only.suffix (a := [c]) h) rfl)

/-! ### The output of single tokens -/

theorem Only.wrap {n m x : Str} (hn : N n) (h : '<' ∉ n ++ ' ' :: m) (hx : Only N x) :
    Only N ('<' :: ((n ++ ' ' :: m) ++ '>' :: (x ++ ('<' :: '/' :: (n ++ c!">"))))) := by
  have hn' : '<' ∉ n := fun h' => h (by simp [h'])
  have := (Only.opening hn h).append (hx.append (Only.tag (N := N) (y := '/' :: n) (by simp [hn']) ⟨n, hn, .inr (.inr rfl)⟩))
  simpa using this

theorem Only.sup {x : Str} (hs : N c!"sup") (ha : N c!"a") (n : Nat) : Only N (supTag (sanitize x) n) := by
  have h1 := Only.wrap (N := N) (n := c!"a") (m := c!"href=\"#fn:" ++ sanitize x ++ c!"\" class=\"footnote\" rel=\"footnote\"")
    (x := dec n) ha (by simp [san_lt]) (.text (dec_no_lt n))
  have h2 := Only.wrap (N := N) (n := c!"sup") (m := c!"id=\"fnref:" ++ sanitize x ++ c!"\" role=\"doc-noteref\"") hs (by simp [san_lt]) h1
  simpa [supTag] using h2

theorem Only.footRefs (hs : N c!"sup") (ha : N c!"a") : ∀ (toks : List Str) (n : Nat), (∀ t ∈ toks, '<' ∉ t) → Only N (footRefs n toks)
  | [], _, _ => .nil
  | t :: ts, n, h => by
    unfold Gfm.footRefs
    split
    · exact (Only.sup hs ha n).append (Only.footRefs hs ha ts (n + 1) fun x hx => h x (by simp [hx]))
    · exact Only.append (.text (h t (by simp))) (Only.footRefs hs ha ts n fun x hx => h x (by simp [hx]))

theorem Only.plainOut {x : Str} (h : ¬ c!"[^" <:+: x ∨ '<' ∉ x) (hn : c!"[^" <:+: x → N c!"sup" ∧ N c!"a") : Only N (plainOut x) := by
  unfold Gfm.plainOut
  simp only
  split
  · next hc =>
    simp only [Bool.and_eq_true] at hc
    have hin := (contains_infix (by simp) hc.1).trans (plainTrim_prefix x).isInfix
    rcases h with h | h
    · exact absurd hin h
    · refine Only.footRefs (hn hin).1 (hn hin).2 _ _ fun t ht hm => h ?_
      exact (plainTrim_prefix x).subset ((splitStr_infix _ _ t ht).subset hm)
  · exact .text (san_lt _)

theorem Only.elem {n x : Str} (hn : N n) (h : '<' ∉ n) (hx : Only N x) : Only N ('<' :: (n ++ '>' :: (x ++ ('<' :: '/' :: (n ++ c!">"))))) := by
  have := (Only.tag h ⟨n, hn, .inl rfl⟩).append (hx.append (Only.tag (N := N) (y := '/' :: n) (by simp [h]) ⟨n, hn, .inr (.inr rfl)⟩))
  simpa using this

theorem Only.headerOut {l : Nat} {t : Str} (hn : N ('h' :: dec l)) (ht : Only N t) : Only N (headerOut l t none) := by
  have := (Only.elem hn (by simp [dec_no_lt]) ht).append (y := c!"\n") (.text (by decide))
  simpa [Gfm.headerOut] using this

theorem Only.imageOut {l t : Str} (hi : N c!"img") (hp : N c!"p") (hl : '<' ∉ l) : Only N (imageOut l (some t)) := by
  have key : ∀ m : Str, '<' ∉ m → Only N (c!"<p><img " ++ (m ++ c!"></p>")) := by
    intro m hm
    have := Only.elem hp (by decide) (Only.opening (N := N) (n := c!"img") (m := m) hi (by simp [hm]))
    simpa using this
  unfold Gfm.imageOut
  simp only
  split
  · have := key (c!"src=\"data:,\" alt=\"" ++ sanitize t ++ c!"\"") (by simp [san_lt])
    simpa using this
  · have := key (c!"src=\"" ++ l ++ c!"\" alt=\"" ++ sanitize t ++ c!"\" referrerpolicy=\"no-referrer\"") (by simp [hl, san_lt])
    simpa using this

theorem Only.linkOut {u : ValidURL} {t : Str} {hover : Option Str} (ha : N c!"a") (hu : '<' ∉ u.display)
    (hh : ∀ x, hover = some x → '<' ∉ x) : Only N (linkOut u (some t) hover) := by
  cases hover with
  | none =>
    have := Only.wrap (N := N) (n := c!"a") (m := c!"href=\"" ++ u.display ++ c!"\"") (x := sanitize t) ha (by simp [hu]) (.text (san_lt t))
    simpa [Gfm.linkOut] using this
  | some ht =>
    have := Only.wrap (N := N) (n := c!"a") (m := c!"href=") (x := c!"\"" ++ u.display ++ c!"\" title=\"" ++ ht ++ c!"\">" ++ sanitize t) ha (by decide)
      (.text (by simp [hu, hh ht rfl, san_lt]))
    simpa [Gfm.linkOut] using this

theorem Only.autoOut {u : ValidURL} (ha : N c!"a") (hu : '<' ∉ u.display) (hf : '<' ∉ u.fmtUnsafe) : Only N (Gfm.linkOut u none none) := by
  have := Only.wrap (N := N) (n := c!"a") (m := c!"href=\"" ++ u.display ++ c!"\"") (x := u.fmtUnsafe) ha (by simp [hu]) (.text hf)
  simpa [Gfm.linkOut] using this

theorem Only.taskOut (b : TaskBox) (t : Str) (hl : N c!"li") (hi : N c!"input") : Only N (taskOut b t) := by
  have hn : ∀ n ∈ [c!"li", c!"input"], N n := by simp [hl, hi]
  cases b with
  | checked => exact Only.append (Only.append (.const (names := [c!"li", c!"input"]) (by decide) hn) (.text (san_lt t))) (.const (by decide) hn)
  | unchecked => exact Only.append (Only.append (.const (names := [c!"li", c!"input"]) (by decide) hn) (.text (san_lt t))) (.const (by decide) hn)

theorem align_lt (al : Alignment) : '<' ∉ al.display := by cases al <;> decide

theorem Only.headCells (h : N c!"th") (hs : List (Alignment × Str)) : Only N (headCells hs) := by
  refine Only.flat fun x _ => ?_
  have := Only.wrap (N := N) (n := c!"th") (m := c!"style=\"text-align: " ++ x.1.display ++ c!"\"") (x := sanitize x.2) h (by simp [align_lt]) (.text (san_lt _))
  have := Only.append (x := c!"\t\t") (.text (by decide)) this
  simpa using this

theorem Only.cell {al : Alignment} {txt : Str} (h : N c!"td") (ht : Only N txt) :
    Only N (c!"\n\t\t<td style=\"text-align: " ++ al.display ++ c!"\">" ++ txt ++ c!"</td>") := by
  have := Only.wrap (N := N) (n := c!"td") (m := c!"style=\"text-align: " ++ al.display ++ c!"\"") (x := txt) h (by simp [align_lt]) ht
  have := Only.append (x := c!"\n\t\t") (.text (by decide)) this
  simpa using this

theorem Only.noteOut (n : Str × Str) (hp : N c!"p") (hl : N c!"li") (ha : N c!"a") : Only N (noteOut n) := by
  have h1 := Only.wrap (N := N) (n := c!"a") (m := c!"href=\"#fnref:" ++ sanitize n.1 ++ c!"\" class=\"reversefootnote\" role=\"doc-backlink\"") (x := c!"↩") ha
    (by simp [san_lt]) (.text (by decide))
  have hn : ∀ n ∈ [c!"li", c!"p"], N n := by simp [hl, hp]
  have := (Only.const (names := [c!"li", c!"p"]) (x := c!"\t\t<li id=\"fn:1\" role=\"doc-endnote\">\t\t\t<p>") (by decide) hn).append
    ((Only.text (x := sanitize n.2) (san_lt _)).append (h1.append (Only.const (names := [c!"li", c!"p"]) (x := c!"</p>\t\t</li>") (by decide) hn)))
  simpa [Gfm.noteOut] using this

/-! ### The state -/

/-- What has been written has only names from the set, and so has what is to be written at the end. -/
structure Holds (N : Str → Prop) (st : PState) : Prop where
  html : Only N st.html
  ul : st.inUl = true ∨ st.inTask = true → N c!"ul"
  ol : st.inOl = true → N c!"ol"
  quote : st.quoteLevel ≠ 0 → N c!"blockquote"
  code : st.inCode = true → N c!"pre" ∧ N c!"code"
  refs : st.refs ≠ [] → N c!"div" ∧ N c!"ol" ∧ N c!"li" ∧ N c!"a"

theorem Holds.init : Holds N {} := ⟨.nil, by simp, by simp, by simp, by simp, by simp⟩

theorem Holds.push {st : PState} (h : Holds N st) {x : Str} (hx : Only N x) : Holds N (st.push x) :=
  ⟨h.html.append hx, h.ul, h.ol, h.quote, h.code, h.refs⟩

theorem Only.one {n x : Str} (hn : N n) (h : onlyCheck [n] x = true) : Only N x := .const h (by simp [hn])

theorem Holds.ensurePara {st : PState} (hp : N c!"p") (h : Holds N st) : Holds N st.ensurePara := by
  unfold PState.ensurePara
  split
  · exact (Holds.push (st := { st with inPara := true }) ⟨h.html, h.ul, h.ol, h.quote, h.code, h.refs⟩ (.one hp (by decide)))
  · exact h

theorem step1_holds (hp : N c!"p") (t : Token) {st : PState} (h : Holds N st) (hc : isCode t = true → N c!"pre" ∧ N c!"code") :
    Holds N (step1 t st) := by
  unfold step1
  refine ite_ind (fun _ => h) fun _ => ?_
  refine ite_ind (fun _ => h) fun _ => ?_
  refine ite_ind (fun _ => h) fun _ => ?_
  refine ite_ind (fun _ => h) fun _ => ?_
  refine ite_ind (fun _ => ?_) fun _ => ?_
  · refine Holds.push ?_ (.one hp (by decide))
    refine Holds.push (st := { st with quoteLevel := 0, inPara := true }) ⟨h.html, h.ul, h.ol, by simp, h.code, h.refs⟩ ?_
    by_cases hq : st.quoteLevel = 0
    · rw [hq]; exact .nil
    · exact Only.rep (.one (h.quote hq) (by decide)) _
  refine ite_ind (fun ho => ?_) fun _ => ?_
  · exact Holds.ensurePara hp (Holds.push (st := { st with inOl := false }) ⟨h.html, h.ul, by simp, h.quote, h.code, h.refs⟩ (.one (h.ol ho) (by decide)))
  refine ite_ind (fun ho => ?_) fun _ => ?_
  · exact Holds.ensurePara hp (Holds.push (st := { st with inUl := false }) ⟨h.html, fun e => h.ul (e.imp (by simp) id), h.ol, h.quote, h.code, h.refs⟩
      (.one (h.ul (.inl ho)) (by decide)))
  refine ite_ind (fun ho => ?_) fun _ => ?_
  · exact Holds.ensurePara hp (Holds.push (st := { st with inTask := false }) ⟨h.html, fun e => h.ul (e.imp id (by simp)), h.ol, h.quote, h.code, h.refs⟩
      (.one (h.ul (.inr ho)) (by decide)))
  refine ite_ind (fun _ => ?_) fun _ => ?_
  · exact Holds.push (st := { st with inPara := false }) ⟨h.html, h.ul, h.ol, h.quote, h.code, h.refs⟩ (.one hp (by decide))
  refine ite_ind (fun _ => h) fun _ => ?_
  refine ite_ind (fun he => ?_) fun _ => h
  simp at he
  have h' := hc he.1
  exact Holds.push (st := { st with inCode := true }) ⟨h.html, h.ul, h.ol, h.quote, fun _ => h', h.refs⟩
    (.const (names := [c!"pre", c!"code"]) (by decide) (by simp [h']))

theorem entryOut_only (hN : ∀ n, N n → '>' ∉ n) (r : Rec) : ∀ (ts : List Token) (h : Str),
    (∀ x, Token.plaintext x ∈ ts → ∀ h, r.render [] (entryArg x) = .ok h → Only N h) → entryOut r ts = .ok h → Only N h
  | [], h, _, e => by injection e with e; subst e; exact .nil
  | t :: ts, h, hk, e => by
    have ih := fun h => entryOut_only hN r ts h (fun x hx => hk x (by simp [hx]))
    cases t with
    | plaintext x =>
      simp only [entryOut] at e
      obtain ⟨h1, e1, e⟩ := Outcome.bind_ok' e
      obtain ⟨h2, e2, e⟩ := Outcome.bind_ok' e
      injection e with e
      subst e
      exact (Only.pad hN (hk x (by simp) h1 e1)).append (ih h2 e2)
    | _ => exact ih h e

theorem endNl_only {x : Str} (h : Only N x) : Only N (endNl x) := by
  unfold endNl
  split
  · exact h.append (.text (by decide))
  · exact h

theorem Holds.finish (hp : N c!"p") {st : PState} (h : Holds N st) : Only N (finish st) := by
  unfold Gfm.finish
  simp only
  have h1 : Only N (if st.inPara then st.html ++ c!"</p>\n" else st.html) := by
    split
    · exact h.html.append (.one hp (by decide))
    · exact h.html
  generalize (if st.inPara then st.html ++ c!"</p>\n" else st.html) = s1 at *
  have h2 : Only N (s1 ++ rep st.quoteLevel c!"</blockquote>\n") := by
    refine h1.append ?_
    by_cases hq : st.quoteLevel = 0
    · rw [hq]; exact .nil
    · exact Only.rep (.one (h.quote hq) (by decide)) _
  generalize s1 ++ rep st.quoteLevel c!"</blockquote>\n" = s2 at *
  have h3 : Only N (if st.inTask || st.inUl then s2 ++ c!"</ul>" else s2) := by
    split
    · next hu =>
      refine h2.append (.one (h.ul ?_) (by decide))
      simp at hu
      exact hu.symm
    · exact h2
  generalize (if st.inTask || st.inUl then s2 ++ c!"</ul>" else s2) = s3 at *
  have h4 : Only N (if st.inOl then s3 ++ c!"</ol>" else s3) := by
    split
    · next ho => exact h3.append (.one (h.ol ho) (by decide))
    · exact h3
  generalize (if st.inOl then s3 ++ c!"</ol>" else s3) = s4 at *
  have h5 : Only N (if st.inCode then endNl (endNl s4) ++ c!"</code></pre>" else endNl s4) := by
    split
    · next hc => exact (endNl_only (endNl_only h4)).append (.const (names := [c!"pre", c!"code"]) (by decide) (by simp [h.code hc]))
    · exact endNl_only h4
  split
  · next hr =>
    have ⟨k1, k2, k3, k4⟩ := h.refs (by intro e; simp [e] at hr)
    refine ((((h5.append (.one k1 (by decide))).append (.one k2 (by decide))).append (Only.flat fun n _ => Only.noteOut n hp k3 k4)).append
      (.one k2 (by decide))).append (.one k1 (by decide))
  · exact h5

/-- The names a token needs. -/
def Need (N : Str → Prop) (r : Rec) (t : Token) : Prop :=
  (∀ k h, IsKid t k → r.render [] k = .ok h → Only N h) ∧
  match t with
  | .plaintext x => c!"[^" <:+: x → N c!"sup" ∧ N c!"a"
  | .header l t _ => N ('h' :: dec l) ∧ Only N t
  | .orderedListEntry _ => N c!"ol" ∧ N c!"li"
  | .unorderedListEntry _ => N c!"ul" ∧ N c!"li"
  | .image _ _ => N c!"img"
  | .link _ _ _ => N c!"a"
  | .italic _ => N c!"em"
  | .bold _ => N c!"strong"
  | .boldItalic _ => N c!"em" ∧ N c!"strong"
  | .blockQuote _ _ => N c!"blockquote"
  | .taskListItem _ _ => N c!"ul" ∧ N c!"li" ∧ N c!"input"
  | .strikethrough _ => N c!"strike"
  | .code _ => N c!"pre" ∧ N c!"code"
  | .horizontalRule => N c!"hr"
  | .footnote _ _ => N c!"div" ∧ N c!"ol" ∧ N c!"li" ∧ N c!"a"
  | .detail _ _ => N c!"details" ∧ N c!"summary"
  | .table _ _ => ∀ n ∈ [c!"table", c!"thead", c!"tbody", c!"tr", c!"th", c!"td"], N n
  | _ => True

theorem quoteStep_holds (hp : N c!"p") (hT : ∀ n, N n → '\t' ∉ n) (hb : N c!"blockquote") (r : Rec) (l : Nat) (x : Str) {st st' : PState}
    (h : Holds N st) (hk : ∀ h, r.render [] (quoteArg x) = .ok h → Only N h) (e : quoteStep r l x st = .ok st') : Holds N st' := by
  unfold quoteStep at e
  simp only at e
  have h1 : Holds N (if st.inPara then { st with inPara := false }.push c!"</p>" else st) := by
    split
    · exact Holds.push (st := { st with inPara := false }) ⟨h.html, h.ul, h.ol, h.quote, h.code, h.refs⟩ (.one hp (by decide))
    · exact h
  generalize (if st.inPara then { st with inPara := false }.push c!"</p>" else st) = st1 at *
  have h2 : Holds N ({ st1 with quoteLevel := l }.push (quoteTags l st1.quoteLevel)) := by
    refine Holds.push (st := { st1 with quoteLevel := l }) ⟨h1.html, h1.ul, h1.ol, fun _ => hb, h1.code, h1.refs⟩ ?_
    unfold quoteTags
    split
    · exact .nil
    · split
      · exact Only.rep (.one hb (by decide)) _
      · exact Only.rep (.one hb (by decide)) _
  split at e
  · injection e with e
    subst e
    exact h2
  · obtain ⟨y, e1, e⟩ := Outcome.bind_ok' e
    injection e with e
    subst e
    exact h2.push (Only.tabs hT (hk y e1))

theorem Only.simple {n x o c : Str} (hn : N n) (ho : onlyCheck [n] o = true) (hc : onlyCheck [n] c = true) : Only N (o ++ sanitize x ++ c) :=
  ((Only.one hn ho).append (.text (san_lt x))).append (.one hn hc)

theorem step2_holds {q U M : Prop} (hp : N c!"p") (hN : ∀ n, N n → '>' ∉ n ∧ '\t' ∉ n) (r : Rec) (t : Token) {st st' : PState} (h : Holds N st)
    (ok : OkTok q U M r t) (need : Need N r t) (e : step2 r t st = .ok st') : Holds N st' := by
  obtain ⟨-, ok⟩ := ok
  obtain ⟨hk, need⟩ := need
  cases t with
  | plaintext x =>
    simp only [step2] at e
    split at e
    · injection e with e; subst e; exact h
    · injection e with e; subst e; exact h.push (Only.plainOut ok need)
  | header l x lbl =>
    obtain ⟨h1, h2, h3, rfl⟩ := ok
    injection e with e; subst e
    exact h.push (Only.headerOut need.1 need.2)
  | orderedListEntry x =>
    injection e with e; subst e
    refine Holds.push ?_ (Only.simple need.2 (by decide) (by decide))
    split
    · exact Holds.push (st := { st with inOl := true }) ⟨h.html, h.ul, fun _ => need.1, h.quote, h.code, h.refs⟩ (.one need.1 (by decide))
    · exact h
  | unorderedListEntry toks =>
    simp only [step2] at e
    obtain ⟨y, e1, e⟩ := Outcome.bind_ok' e
    injection e with e; subst e
    have hy := entryOut_only (fun n hn => (hN n hn).1) r toks y (fun x hx h' => hk _ h' ⟨x, hx, rfl⟩) e1
    refine Holds.push (Holds.push ?_ hy) (.one need.2 (by decide))
    have h1 : Holds N ((if !st.inUl then { st with inUl := true }.push c!"<ul>\n" else st).push c!"<li>") := by
      refine Holds.push ?_ (.one need.2 (by decide))
      split
      · exact Holds.push (st := { st with inUl := true }) ⟨h.html, fun _ => need.1, h.ol, h.quote, h.code, h.refs⟩ (.one need.1 (by decide))
      · exact h
    split
    · exact h1.push (.text (by decide))
    · exact h1
  | image l x =>
    obtain ⟨⟨x, rfl⟩, h2, _⟩ := ok
    injection e with e; subst e
    exact h.push (Only.imageOut need hp h2)
  | link u x hv =>
    obtain ⟨h1, ⟨⟨x, rfl⟩, h2⟩ | ⟨rfl, rfl, h2⟩⟩ := ok
    · injection e with e; subst e
      exact h.push (Only.linkOut need h1.2.1 h2)
    · injection e with e; subst e
      exact h.push (Only.autoOut need h1.2.1 h2)
  | italic x => injection e with e; subst e; exact h.push (Only.simple need (by decide) (by decide))
  | bold x => injection e with e; subst e; exact h.push (Only.simple need (by decide) (by decide))
  | boldItalic x =>
    injection e with e; subst e
    have hn : ∀ n ∈ [c!"em", c!"strong"], N n := by simp [need]
    exact h.push (Only.append (Only.append (.const (names := [c!"em", c!"strong"]) (by decide) hn) (.text (san_lt x))) (.const (by decide) hn))
  | blockQuote l x => exact quoteStep_holds hp (fun n hn => (hN n hn).2) need r l x h (fun h' => hk _ h' rfl) e
  | taskListItem b x =>
    injection e with e; subst e
    refine Holds.push ?_ (Only.taskOut b x need.2.1 need.2.2)
    split
    · exact Holds.push (st := { st with inTask := true }) ⟨h.html, fun _ => need.1, h.ol, h.quote, h.code, h.refs⟩ (.one need.1 (by decide))
    · exact h
  | strikethrough x => injection e with e; subst e; exact h.push (Only.simple need (by decide) (by decide))
  | code x => injection e with e; subst e; exact h.push (.text (san_lt _))
  | horizontalRule => injection e with e; subst e; exact h.push (.one need (by decide))
  | newline => injection e with e; subst e; exact h
  | tab => injection e with e; subst e; exact h.push (.text (by decide))
  | doubleTab => injection e with e; subst e; exact h.push (.text (by decide))
  | footnote i x => injection e with e; subst e; exact ⟨h.html, h.ul, h.ol, h.quote, h.code, fun _ => need⟩
  | lineBreak => injection e with e; subst e; exact h
  | codeBlock x l => injection e with e; subst e; exact h
  | detail s i => injection e with e; subst e; exact h
  | table a b => injection e with e; subst e; exact h

/-! ### Tokens -/

theorem parseToks_holds_of (r : Rec) : ∀ (ts : List Token),
    (∀ t ∈ ts, ∀ st st', Holds N st → parseTok r t st = .ok st' → Holds N st') →
    ∀ st st', Holds N st → parseToks r ts st = .ok st' → Holds N st'
  | [], _, st, st', h, e => by
    simp only [parseToks] at e
    injection e with e
    exact e ▸ h
  | t :: ts, hq, st, st', h, e => by
    simp only [parseToks] at e
    obtain ⟨st1, e1, e⟩ := Outcome.bind_ok e
    exact parseToks_holds_of r ts (fun u hu => hq u (by simp [hu])) st1 st' (hq t (by simp) st st1 h e1) e

theorem parseDoc_only_of (hp : N c!"p") (r : Rec) (ts : List Token)
    (hq : ∀ t ∈ ts, ∀ st st', Holds N st → parseTok r t st = .ok st' → Holds N st') (x : Str)
    (e : ((parseToks r ts {}).bind fun s => .ok (finish s)) = .ok x) : Only N x := by
  obtain ⟨st1, e1, e⟩ := Outcome.bind_ok e
  injection e with e
  subst e
  exact (parseToks_holds_of r ts hq {} st1 .init e1).finish hp

theorem cellText_only (r : Rec) (w : Outcome Str) (hw : ∀ x, w = .ok x → Only N x) : ∀ (ts : List Token) (x : Str),
    (∀ t ∈ ts, t.isUsableInTable = true) → (∀ t ∈ ts, Need N r t) → cellText w ts = .ok x → Only N x
  | [], x, _, _, e => by injection e with e; subst e; exact .nil
  | t :: ts, x, hu, hn, e => by
    have hut := hu t (by simp)
    have hnt := (hn t (by simp)).2
    unfold cellText at e
    obtain ⟨h1, e1, e⟩ := Outcome.bind_ok' e
    obtain ⟨h2, e2, e⟩ := Outcome.bind_ok' e
    injection e with e
    subst e
    refine Only.append ?_ (cellText_only r w hw ts h2 (fun u h => hu u (by simp [h])) (fun u h => hn u (by simp [h])) e2)
    split at e1
    · injection e1 with e1; subst e1; exact .text (san_lt _)
    · injection e1 with e1; subst e1; exact Only.simple hnt (by decide) (by decide)
    · injection e1 with e1; subst e1; exact Only.simple hnt (by decide) (by decide)
    · next s =>
      injection e1 with e1; subst e1
      have hn : ∀ n ∈ [c!"em", c!"strong"], N n := by
        have : N c!"em" ∧ N c!"strong" := hnt
        simp [this]
      exact Only.append (Only.append (.const (names := [c!"em", c!"strong"]) (by decide) hn) (.text (san_lt s))) (.const (by decide) hn)
    · cases hut
    · cases hut
    · cases hut
    · exact hw h1 e1

theorem parseCell_only_of (hp : N c!"p") (hd : N c!"td") (r : Rec) (c : Alignment × List Token) (hu : ∀ t ∈ c.2, t.isUsableInTable = true) (hn : ∀ t ∈ c.2, Need N r t)
    (hq : ∀ t ∈ c.2, ∀ st st', Holds N st → parseTok r t st = .ok st' → Holds N st') (x : Str) (e : parseCell r c = .ok x) : Only N x := by
  obtain ⟨a, toks⟩ := c
  simp only [parseCell] at e
  obtain ⟨txt, e1, e⟩ := Outcome.bind_ok e
  injection e with e
  subst e
  exact Only.cell hd (cellText_only r _ (parseDoc_only_of hp r toks hq) toks txt hu hn e1)

theorem parseRow_only_of (hp : N c!"p") (hd : N c!"td") (r : Rec) : ∀ (row : List (Alignment × List Token)),
    (∀ c ∈ row, ∀ t ∈ c.2, t.isUsableInTable = true) → (∀ c ∈ row, ∀ t ∈ c.2, Need N r t) →
    (∀ c ∈ row, ∀ t ∈ c.2, ∀ st st', Holds N st → parseTok r t st = .ok st' → Holds N st') → ∀ x : Str, parseRow r row = .ok x → Only N x
  | [], _, _, _, x, e => by
    simp only [parseRow] at e
    injection e with e
    subst e
    exact .nil
  | c :: row, hu, hn, hq, x, e => by
    simp only [parseRow] at e
    obtain ⟨h1, e1, e⟩ := Outcome.bind_ok e
    obtain ⟨h2, e2, e⟩ := Outcome.bind_ok e
    injection e with e
    subst e
    exact Only.append (parseCell_only_of hp hd r c (hu c (by simp)) (hn c (by simp)) (hq c (by simp)) h1 e1)
      (parseRow_only_of hp hd r row (fun u h => hu u (by simp [h])) (fun u h => hn u (by simp [h])) (fun u h => hq u (by simp [h])) h2 e2)

theorem parseRows_only_of (hp : N c!"p") (hd : N c!"td") (hr : N c!"tr") (r : Rec) : ∀ (rows : List (List (Alignment × List Token))),
    (∀ row ∈ rows, ∀ c ∈ row, ∀ t ∈ c.2, t.isUsableInTable = true) → (∀ row ∈ rows, ∀ c ∈ row, ∀ t ∈ c.2, Need N r t) →
    (∀ row ∈ rows, ∀ c ∈ row, ∀ t ∈ c.2, ∀ st st', Holds N st → parseTok r t st = .ok st' → Holds N st') → ∀ x : Str,
    parseRows r rows = .ok x → Only N x
  | [], _, _, _, x, e => by
    simp only [parseRows] at e
    injection e with e
    subst e
    exact .nil
  | row :: rows, hu, hn, hq, x, e => by
    simp only [parseRows] at e
    obtain ⟨h1, e1, e⟩ := Outcome.bind_ok e
    obtain ⟨h2, e2, e⟩ := Outcome.bind_ok e
    injection e with e
    subst e
    refine Only.append (((Only.one hr (by decide)).append ?_).append (.one hr (by decide)))
      (parseRows_only_of hp hd hr r rows (fun u h => hu u (by simp [h])) (fun u h => hn u (by simp [h])) (fun u h => hq u (by simp [h])) h2 e2)
    exact parseRow_only_of hp hd r row (hu row (by simp)) (hn row (by simp)) (hq row (by simp)) h1 e1

theorem parseTok_holds {q U M : Prop} (hp : N c!"p") (hN : ∀ n, N n → '>' ∉ n ∧ '\t' ∉ n) (r : Rec) {t : Token}
    (h : TokAll (fun t => OkTok q U M r t ∧ Need N r t) t) : ∀ st st', Holds N st → parseTok r t st = .ok st' → Holds N st' := by
  induction h with
  | mk t h hs ih =>
    intro st st' hst e
    cases t with
    | detail s inner =>
      have hneed : N c!"details" ∧ N c!"summary" := h.2.2
      simp only [parseTok] at e
      obtain ⟨s1, e1, e⟩ := Outcome.bind_ok e
      injection e with e
      subst e
      have h1 := step1_holds hp (.detail s inner) hst (by simp [isCode])
      have hn : ∀ n ∈ [c!"details", c!"summary"], N n := by simp [hneed]
      refine Holds.push ?_ ?_
      · split
        · exact Holds.push (st := { step1 (.detail s inner) st with inPara := false }) ⟨h1.html, h1.ul, h1.ol, h1.quote, h1.code, h1.refs⟩ (.one hp (by decide))
        · exact h1
      · exact ((((Only.const (names := [c!"details", c!"summary"]) (by decide) hn).append (.text (san_lt s))).append (.const (names := [c!"details", c!"summary"]) (by decide) hn)).append
          ((parseToks_holds_of r inner ih _ _ .init e1).finish hp)).append (.const (names := [c!"details", c!"summary"]) (by decide) hn)
    | table heads rows =>
      have h1 := step1_holds hp (.table heads rows) hst (by simp [isCode])
      have hneed : ∀ n ∈ [c!"table", c!"thead", c!"tbody", c!"tr", c!"th", c!"td"], N n := h.2.2
      have hsub : ∀ row ∈ rows, ∀ c ∈ row, ∀ t ∈ c.2, Need N r t := fun row hr c hc t ht =>
        (hs t (mem_subToks_table.mpr ⟨row, hr, c, hc, ht⟩)).head.2
      cases rows with
      | nil => simp only [parseTok] at e; cases e
      | cons r0 rs =>
        have hall : ∀ row ∈ r0 :: rs, ∀ c ∈ row, ∀ t ∈ c.2, ∀ st st', Holds N st → parseTok r t st = .ok st' → Holds N st' := by
          intro row hr c hc t ht
          exact ih t (mem_subToks_table.mpr ⟨row, hr, c, hc, ht⟩)
        have hus : ∀ row ∈ r0 :: rs, ∀ c ∈ row, ∀ t ∈ c.2, t.isUsableInTable = true := h.1.2
        simp only [parseTok] at e
        split at e
        · injection e with e
          subst e
          exact h1
        · obtain ⟨b0, e1, e⟩ := Outcome.bind_ok e
          obtain ⟨bs, e2, e⟩ := Outcome.bind_ok e
          injection e with e
          subst e
          have hr : N c!"tr" := hneed _ (by simp)
          have hd : N c!"td" := hneed _ (by simp)
          have hb0 := parseRow_only_of hp hd r r0 (hus r0 (by simp)) (hsub r0 (by simp)) (hall r0 (by simp)) b0 e1
          have hbs := parseRows_only_of hp hd hr r rs (fun row h => hus row (by simp [h])) (fun row h => hsub row (by simp [h]))
            (fun row h => hall row (by simp [h])) bs e2
          exact h1.push ((((((Only.const (by decide) hneed).append (Only.headCells (hneed _ (by simp)) heads)).append (Only.const (by decide) hneed)).append
            (((Only.one hr (by decide)).append hb0).append (.one hr (by decide)))).append hbs).append (Only.const (by decide) hneed))
    | _ =>
      simp only [parseTok] at e
      exact step2_holds hp hN r _ (step1_holds hp _ hst (fun hc => by first | exact h.2.2 | simp [isCode] at hc)) h.1 h.2 e

end Smd.Gfm
