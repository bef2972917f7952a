import Verif.Lemmas.Chunks

/-! What a browser's tokenizer finds in a sequence of tags and text. -/

namespace Smd.Gfm
open Smd.Rs Smd.Spec

/-! ### Only known names -/

/-- States in which no tag name is being read. -/
def Calm (st : HState) : Prop := st ≠ .tagOpen ∧ st ≠ .endTagOpen ∧ st ≠ .tagName

/-- The tag being read, if any, has a name of the set `N`. -/
def NameIn (N : Str → Prop) (st : HState) (a : HAcc) : Prop := st = .data ∨ st = .bogus ∨ N a.tag.name

theorem attrStart_in {N : Str → Prop} {a : HAcc} (c : Char) (h : N a.tag.name) :
    Calm (attrStart a c).1 ∧ NameIn N (attrStart a c).1 (attrStart a c).2.1 ∧
      ∀ t ∈ (attrStart a c).2.2, N t.name := by
  unfold attrStart
  split
  · exact ⟨by simp [Calm], .inr (.inr h), by simp⟩
  split
  · exact ⟨by simp [Calm], .inr (.inr h), by simp⟩
  split
  · exact ⟨by simp [Calm], .inl rfl, by simpa using h⟩
  · exact ⟨by simp [Calm], .inr (.inr h), by simp⟩

theorem hstep_in {N : Str → Prop} {st : HState} {a : HAcc} {c : Char} (hs : Calm st) (hn : NameIn N st a)
    (hc : st = .data → c ≠ '<') :
    Calm (hstep st a c).1 ∧ NameIn N (hstep st a c).1 (hstep st a c).2.1 ∧
      ∀ t ∈ (hstep st a c).2.2, N t.name := by
  have hn' : st ≠ .data → st ≠ .bogus → N a.tag.name := fun h1 h2 => by
    rcases hn with h | h | h
    · exact absurd h h1
    · exact absurd h h2
    · exact h
  cases st with
  | data => simp [hstep, hc rfl, Calm, NameIn]
  | tagOpen => exact absurd rfl hs.1
  | endTagOpen => exact absurd rfl hs.2.1
  | tagName => exact absurd rfl hs.2.2
  | bogus => simp only [hstep]; split <;> simp [Calm, NameIn]
  | beforeAttr => exact attrStart_in c (hn' (by simp) (by simp))
  | afterVal => exact attrStart_in c (hn' (by simp) (by simp))
  | selfClose => exact attrStart_in c (hn' (by simp) (by simp))
  | _ =>
    have hn := hn' (by simp) (by simp)
    simp only [hstep]
    repeat' split
    all_goals exact ⟨by simp [Calm], by simp [NameIn, HAcc.fin, hn], by simp [HAcc.fin, hn]⟩

/-- The tag being read, if any, has a known name. -/
def NameOk (st : HState) (a : HAcc) : Prop := NameIn (· ∈ tagNames) st a

theorem hstep_calm {st : HState} {a : HAcc} {c : Char} (hs : Calm st) (hn : NameOk st a)
    (hc : st = .data → c ≠ '<') :
    Calm (hstep st a c).1 ∧ NameOk (hstep st a c).1 (hstep st a c).2.1 ∧
      ∀ t ∈ (hstep st a c).2.2, t.name ∈ tagNames := hstep_in hs hn hc

/-- Text without `<`, in a calm state. -/
theorem hscan_calm (s : Str) : ∀ {b : Str} {st : HState} {a : HAcc}, '<' ∉ b → Calm st → NameOk st a →
    ∃ ts st' a', hscan st a (b ++ s) = ts ++ hscan st' a' s ∧ Calm st' ∧ NameOk st' a' ∧ ∀ t ∈ ts, t.name ∈ tagNames
  | [], st, a, _, h1, h2 => ⟨[], st, a, rfl, h1, h2, by simp⟩
  | c :: b, st, a, hb, h1, h2 => by
    simp at hb
    obtain ⟨k1, k2, k3⟩ := hstep_calm (c := c) h1 h2 (fun _ => Ne.symm hb.1)
    obtain ⟨ts, st', a', e, r1, r2, r3⟩ := hscan_calm s hb.2 k1 k2
    refine ⟨(hstep st a c).2.2.toList ++ ts, st', a', ?_, r1, r2, ?_⟩
    · rw [List.cons_append, hscan, e, List.append_assoc]
    · intro t ht
      rcases List.mem_append.mp ht with ht | ht
      · exact k3 t (by simpa using ht)
      · exact r3 t ht

/-- Characters of element names. -/
def nameChar (c : Char) : Bool := !tagWs c && c != '/' && c != '>' && c.toLower == c

theorem names_ok : ∀ n ∈ tagNames, ∃ c m, n = c :: m ∧ c.isAlpha = true ∧ c ≠ '/' ∧ c ≠ '!' ∧ c ≠ '?' ∧ c.toLower = c ∧
    ∀ d ∈ m, nameChar d = true := by
  have : ∀ n ∈ tagNames, n ≠ [] ∧ (∀ c ∈ n.head?, c.isAlpha = true ∧ c ≠ '/' ∧ c ≠ '!' ∧ c ≠ '?' ∧ c.toLower = c) ∧
      ∀ d ∈ n.tail, nameChar d = true := by decide
  intro n hn
  have h := this n hn
  cases n with
  | nil => exact absurd rfl h.1
  | cons c m =>
    have h1 := h.2.1 c rfl
    exact ⟨c, m, rfl, h1.1, h1.2.1, h1.2.2.1, h1.2.2.2.1, h1.2.2.2.2, h.2.2⟩

theorem hscan_nameTail (s : Str) : ∀ (m : Str) (a : HAcc), (∀ d ∈ m, nameChar d = true) →
    hscan .tagName a (m ++ s) = hscan .tagName { a with tag := { a.tag with name := a.tag.name ++ m } } s
  | [], a, _ => by simp
  | c :: m, a, h => by
    have hc := h c (by simp)
    simp only [nameChar, Bool.and_eq_true, Bool.not_eq_true', bne_iff_ne, ne_eq, beq_iff_eq] at hc
    obtain ⟨⟨⟨h1, h2⟩, h3⟩, h4⟩ := hc
    rw [List.cons_append, hscan]
    simp only [hstep, h1, h2, h3, h4]
    simp only [Bool.false_eq_true, if_false, Option.toList, List.nil_append]
    rw [hscan_nameTail s m _ fun d hd => h d (by simp [hd])]
    simp

/-- After `<` and a name, the tokenizer is reading the tag of that name. -/
theorem hscan_open {n : Str} (hn : n ∈ tagNames) (s : Str) (a : HAcc) :
    hscan .data a ('<' :: (n ++ s)) = hscan .tagName { tag := { name := n } } s := by
  obtain ⟨c, m, rfl, h1, h2, h3, h4, h5, h6⟩ := names_ok n hn
  simp only [hscan, hstep, List.cons_append, h1, h2, h3, h4, h5, if_true, if_false, Option.toList, List.nil_append, or_self]
  rw [hscan_nameTail s m _ h6]
  rfl

theorem hscan_close {n : Str} (hn : n ∈ tagNames) (s : Str) (a : HAcc) :
    hscan .data a ('<' :: '/' :: (n ++ s)) = hscan .tagName { tag := { close := true, name := n } } s := by
  obtain ⟨c, m, rfl, h1, h2, h3, h4, h5, h6⟩ := names_ok n hn
  simp only [hscan, hstep, List.cons_append, h1, h5, if_true, Option.toList, List.nil_append]
  rw [hscan_nameTail s m _ h6]
  rfl

/-- The end of a tag name. -/
theorem hscan_nameEnd {b : Str} (s : Str) {a : HAcc} (hn : a.tag.name ∈ tagNames) (hb : '<' ∉ b)
    (hh : b.head? = some '>' ∨ b.head? = some ' ') :
    ∃ ts st' a', hscan .tagName a (b ++ s) = ts ++ hscan st' a' s ∧ Calm st' ∧ NameOk st' a' ∧ ∀ t ∈ ts, t.name ∈ tagNames := by
  cases b with
  | nil => simp at hh
  | cons c b =>
    simp at hh hb
    rcases hh with rfl | rfl
    · obtain ⟨ts, st', a', e, r⟩ := hscan_calm s (st := .data) (a := {}) hb.2 (by simp [Calm]) (.inl rfl)
      refine ⟨a.tag :: ts, st', a', ?_, r.1, r.2.1, ?_⟩
      · rw [List.cons_append, hscan]
        simp only [hstep]
        simp [tagWs, e]
      · intro t ht
        rcases List.mem_cons.mp ht with rfl | ht
        · exact hn
        · exact r.2.2 t ht
    · obtain ⟨ts, st', a', e, r⟩ := hscan_calm s (st := .beforeAttr) (a := a) hb.2 (by simp [Calm]) (.inr (.inr hn))
      refine ⟨ts, st', a', ?_, r⟩
      rw [List.cons_append, hscan]
      simp only [hstep]
      simp [tagWs, e]

theorem elem_tagName {n : Str} (h : n ∈ elementNames) : n ∈ tagNames := List.mem_cons_of_mem _ h

/-- A tag of the renderer, read in any calm state. -/
theorem hscan_tag {A : Str → Str → Prop} (hA : NoLt A) {t : Str} (ht : TagOf A t) (s : Str) {st : HState} {a : HAcc}
    (h1 : Calm st) (h2 : NameOk st a) :
    ∃ ts st' a', hscan st a (t ++ s) = ts ++ hscan st' a' s ∧ Calm st' ∧ NameOk st' a' ∧ ∀ t ∈ ts, t.name ∈ tagNames := by
  by_cases hd : st = .data
  · subst hd
    cases ht with
    | opening n attrs hn ha =>
      have e : openTag n attrs ++ s = '<' :: (n ++ ((attrs.flatMap attrText ++ ['>']) ++ s)) := by simp [openTag]
      rw [e, hscan_open (elem_tagName hn)]
      refine hscan_nameEnd s (elem_tagName hn) ?_ ?_
      · obtain ⟨b, hb, hb'⟩ := (TagOf.opening (A := A) n attrs hn ha).form hA
        have : n ++ attrs.flatMap attrText = b := by
          have : '<' :: ((n ++ attrs.flatMap attrText) ++ ['>']) = '<' :: (b ++ ['>']) := by
            rw [← hb]; simp [openTag]
          injection this with _ this
          exact List.append_cancel_right this
        rw [← this] at hb'
        simp at hb' ⊢
        exact hb'.2
      · cases attrs with
        | nil => exact .inl rfl
        | cons a as => exact .inr (by simp [attrText])
    | closing n hn =>
      have e : closeTag n ++ s = '<' :: '/' :: (n ++ (['>'] ++ s)) := by simp [closeTag]
      rw [e, hscan_close (elem_tagName hn)]
      exact hscan_nameEnd s (elem_tagName hn) (by simp) (.inl rfl)
    | rule =>
      have e : c!"<hr />" ++ s = '<' :: (c!"hr" ++ (c!" />" ++ s)) := rfl
      rw [e, hscan_open (by decide)]
      exact hscan_nameEnd s (by decide) (by decide) (.inr rfl)
    | emptyHref =>
      have e : c!"<a href=>" ++ s = '<' :: (c!"a" ++ (c!" href=>" ++ s)) := rfl
      rw [e, hscan_open (by decide)]
      exact hscan_nameEnd s (by decide) (by decide) (.inr rfl)
  · obtain ⟨b, rfl, hb⟩ := ht.form hA
    obtain ⟨k1, k2, k3⟩ := hstep_calm (c := '<') h1 h2 (fun h => absurd h hd)
    obtain ⟨ts, st', a', e, r1, r2, r3⟩ := hscan_calm s (b := b ++ ['>']) (by simp [hb]) k1 k2
    refine ⟨(hstep st a '<').2.2.toList ++ ts, st', a', ?_, r1, r2, ?_⟩
    · rw [List.cons_append, hscan, e, List.append_assoc]
    · intro t ht
      rcases List.mem_append.mp ht with ht | ht
      · exact k3 t (by simpa using ht)
      · exact r3 t ht

theorem hscan_names {A : Str → Str → Prop} (hA : NoLt A) {s : Str} (h : Tagged A s) : ∀ {st : HState} {a : HAcc}, Calm st →
    NameOk st a → ∀ t ∈ hscan st a s, t.name ∈ tagNames := by
  induction h with
  | nil => intro st a _ _ t ht; simp [hscan] at ht
  | text c s hc hs ih =>
    intro st a h1 h2 t ht
    obtain ⟨k1, k2, k3⟩ := hstep_calm (c := c) h1 h2 (fun _ => hc)
    rw [hscan] at ht
    rcases List.mem_append.mp ht with ht | ht
    · exact k3 t (by simpa using ht)
    · exact ih k1 k2 t ht
  | tag t s ht hs ih =>
    intro st a h1 h2 u hu
    obtain ⟨ts, st', a', e, r1, r2, r3⟩ := hscan_tag hA ht s h1 h2
    rw [e] at hu
    rcases List.mem_append.mp hu with hu | hu
    · exact r3 u hu
    · exact ih r1 r2 u hu

/-- In a sequence of tags and text a browser finds only known names. -/
theorem htmlTags_names {A : Str → Str → Prop} (hA : NoLt A) {s : Str} (h : Tagged A s) : ∀ t ∈ htmlTags s, t.name ∈ tagNames :=
  hscan_names hA h (by simp [Calm]) (.inl rfl)

/-! ### Exactly the written tags -/

def keyChar (c : Char) : Bool := !tagWs c && c != '/' && c != '>' && c != '=' && c.toLower == c

theorem keys_ok : ∀ n ∈ attrNames, ∃ c m, n = c :: m ∧ keyChar c = true ∧ ∀ d ∈ m, keyChar d = true := by
  have : ∀ n ∈ attrNames, n ≠ [] ∧ ∀ d ∈ n, keyChar d = true := by decide
  intro n hn
  have h := this n hn
  cases n with
  | nil => exact absurd rfl h.1
  | cons c m => exact ⟨c, m, rfl, h.2 c (by simp), fun d hd => h.2 d (by simp [hd])⟩

theorem hscan_key (s : Str) : ∀ (m : Str) (a : HAcc), (∀ d ∈ m, keyChar d = true) →
    hscan .attrName a (m ++ s) = hscan .attrName { a with key := a.key ++ m } s
  | [], a, _ => by simp
  | c :: m, a, h => by
    have hc := h c (by simp)
    simp only [keyChar, Bool.and_eq_true, Bool.not_eq_true', bne_iff_ne, ne_eq, beq_iff_eq] at hc
    obtain ⟨⟨⟨⟨h1, h2⟩, h3⟩, h4⟩, h5⟩ := hc
    rw [List.cons_append, hscan]
    simp only [hstep, h1, h2, h3, h4, h5]
    simp only [Bool.false_eq_true, if_false, Option.toList, List.nil_append]
    rw [hscan_key s m _ fun d hd => h d (by simp [hd])]
    simp

theorem hscan_val (s : Str) : ∀ (v : Str) (a : HAcc), '"' ∉ v →
    hscan .valDq a (v ++ '"' :: s) = hscan .afterVal ({ a with val := a.val ++ v } : HAcc).fin s
  | [], a, _ => by simp [hscan, hstep]
  | c :: v, a, h => by
    simp at h
    rw [List.cons_append, hscan]
    simp only [hstep, Ne.symm h.1, if_false, Option.toList, List.nil_append]
    rw [hscan_val s v _ h.2]
    simp

theorem hscan_attr {k v : Str} (hk : k ∈ attrNames) (hv : '"' ∉ v) (s : Str) (a : HAcc) {st : HState}
    (hst : st = .tagName ∨ st = .afterVal) :
    hscan st a (attrText (k, v) ++ s) = hscan .afterVal { tag := { a.tag with attrs := a.tag.attrs ++ [(k, v)] } } s := by
  obtain ⟨c, m, rfl, h1, h2⟩ := keys_ok k hk
  have e : attrText (c :: m, v) ++ s = ' ' :: c :: (m ++ '=' :: '"' :: (v ++ '"' :: s)) := by simp [attrText]
  have h0 : hscan st a (' ' :: c :: (m ++ '=' :: '"' :: (v ++ '"' :: s))) =
      hscan .beforeAttr a (c :: (m ++ '=' :: '"' :: (v ++ '"' :: s))) := by
    rw [hscan]
    rcases hst with rfl | rfl
    · simp [hstep, tagWs]
    · simp [hstep, attrStart, tagWs]
  rw [e, h0, hscan]
  simp only [keyChar, Bool.and_eq_true, Bool.not_eq_true', bne_iff_ne, ne_eq, beq_iff_eq] at h1
  obtain ⟨⟨⟨⟨g1, g2⟩, g3⟩, g4⟩, g5⟩ := h1
  simp only [hstep, attrStart, g1, g2, g3, g5]
  simp only [Bool.false_eq_true, if_false, Option.toList, List.nil_append]
  rw [hscan_key _ m _ h2, hscan, hscan]
  have e1 : ∀ b : HAcc, hstep .attrName b '=' = (.beforeVal, b, none) := fun _ => rfl
  have e2 : ∀ b : HAcc, hstep .beforeVal b '"' = (.valDq, b, none) := fun _ => rfl
  simp only [e1, e2, Option.toList, List.nil_append]
  rw [hscan_val s v _ hv]
  simp [HAcc.fin]

theorem hscan_attrs (s : Str) : ∀ (attrs : List (Str × Str)) (a : HAcc) (st : HState),
    (∀ x ∈ attrs, SafeAttr True x.1 x.2) → st = .tagName ∨ st = .afterVal →
    hscan st a (attrs.flatMap attrText ++ '>' :: s) = { a.tag with attrs := a.tag.attrs ++ attrs } :: hscan .data {} s
  | [], a, st, _, hst => by
    rw [List.flatMap_nil, List.nil_append, hscan]
    rcases hst with rfl | rfl
    · simp [hstep, tagWs]
    · simp [hstep, attrStart, tagWs]
  | (k, v) :: attrs, a, st, h, hst => by
    have hkv := h (k, v) (by simp)
    rw [List.flatMap_cons, List.append_assoc, hscan_attr hkv.1 (hkv.2.2.1 trivial) _ a hst,
      hscan_attrs s attrs _ _ (fun x hx => h x (by simp [hx])) (.inr rfl)]
    simp

theorem tagName_gt (s : Str) (a : HAcc) : hscan .tagName a ('>' :: s) = a.tag :: hscan .data {} s := by
  rw [hscan]
  simp [hstep, tagWs]

/-- If no attribute value contains a `"`, a browser finds exactly the written tags. -/
theorem htmlTags_safe {s : Str} (h : Tagged (SafeAttr True) s) : ∀ t ∈ htmlTags s, SafeTag t := by
  unfold htmlTags
  induction h with
  | nil => intro t ht; simp [hscan] at ht
  | text c s hc hs ih =>
    intro t ht
    rw [hscan] at ht
    simp [hstep, hc] at ht
    exact ih t ht
  | tag t s ht hs ih =>
    intro u hu
    cases ht with
    | opening n attrs hn ha =>
      have e : openTag n attrs ++ s = '<' :: (n ++ (attrs.flatMap attrText ++ '>' :: s)) := by simp [openTag]
      rw [e, hscan_open (elem_tagName hn), hscan_attrs s attrs _ _ ha (.inl rfl)] at hu
      rcases List.mem_cons.mp hu with rfl | hu
      · exact ⟨elem_tagName hn, fun a haa => ⟨(ha a (by simpa using haa)).1, (ha a (by simpa using haa)).2.2.2⟩⟩
      · exact ih u hu
    | closing n hn =>
      have e : closeTag n ++ s = '<' :: '/' :: (n ++ '>' :: s) := by simp [closeTag]
      rw [e, hscan_close (elem_tagName hn), tagName_gt] at hu
      rcases List.mem_cons.mp hu with rfl | hu
      · exact ⟨elem_tagName hn, by simp⟩
      · exact ih u hu
    | rule =>
      have : hscan .data {} (c!"<hr />" ++ s) = ⟨false, c!"hr", []⟩ :: hscan .data {} s := rfl
      rw [this] at hu
      rcases List.mem_cons.mp hu with rfl | hu
      · exact ⟨by decide, by simp⟩
      · exact ih u hu
    | emptyHref =>
      have : hscan .data {} (c!"<a href=>" ++ s) = ⟨false, c!"a", [(c!"href", [])]⟩ :: hscan .data {} s := rfl
      rw [this] at hu
      rcases List.mem_cons.mp hu with rfl | hu
      · exact ⟨by decide, by simp [attrNames, SafeHref]⟩
      · exact ih u hu

end Smd.Gfm
