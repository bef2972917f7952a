import Verif.Gfm.Parser
import Verif.Spec.Codec
import Verif.Lemmas.Text

/-! The sequential replacements of the code as one map per character. -/

namespace Smd.Gfm
open Smd.Rs Smd.Spec

/-- What the fourteen replacements of `sanitize_display_text` make of one character. -/
def esc (c : Char) : Str :=
  if c = '&' then c!"&amp;"
  else if c = '<' then c!"&lt;"
  else if c = '>' then c!"&gt;"
  else if c = '"' then c!"&quot;"
  else if c = '\'' then c!"&apos;"
  else if c = '[' then c!"&lbrack;"
  else if c = ']' then c!"&rbrack;"
  else if c = '{' then c!"&lbrace;"
  else if c = '}' then c!"&rbrace;"
  else if c = '|' then c!"&mid;"
  else if c = '\\' then []
  else if c = '~' then c!"&tilde;"
  else if c = ')' then c!"&#41;"
  else if c = '(' then c!"&#40;"
  else [c]

/-- The characters `esc` changes. -/
def escSpecial : List Char := c!"&<>\"'[]{}|\\~)("

theorem replaceC_append (c : Char) (r a b : Str) : replaceC c r (a ++ b) = replaceC c r a ++ replaceC c r b := by
  simp [replaceC]

theorem replaceC_nil (c : Char) (r : Str) : replaceC c r [] = [] := rfl

theorem sanitize_append (a b : Str) : sanitize (a ++ b) = sanitize a ++ sanitize b := by
  simp [sanitize, replaceC_append]

theorem replaceC_single (c d : Char) (r : Str) : replaceC c r [d] = if d = c then r else [d] := by
  simp [replaceC]

theorem sanitize_single_special : ∀ c ∈ escSpecial, sanitize [c] = esc c := by decide

theorem sanitize_single (c : Char) : sanitize [c] = esc c := by
  by_cases h : c ∈ escSpecial
  · exact sanitize_single_special c h
  · simp only [escSpecial, List.mem_cons, List.not_mem_nil, not_or, or_false] at h
    obtain ⟨h1, h2, h3, h4, h5, h6, h7, h8, h9, h10, h11, h12, h13, h14⟩ := h
    simp only [sanitize, replaceC_single, esc, h1, h2, h3, h4, h5, h6, h7, h8, h9, h10, h11, h12, h13, h14, if_false]

theorem sanitize_nil : sanitize [] = [] := rfl

theorem sanitize_eq_flatMap : ∀ s : Str, sanitize s = s.flatMap esc
  | [] => rfl
  | c :: s => by
    have := sanitize_append [c] s
    rw [List.singleton_append] at this
    rw [this, sanitize_single, sanitize_eq_flatMap s]
    rfl

theorem sanitize_cons (c : Char) (s : Str) : sanitize (c :: s) = esc c ++ sanitize s := by
  simp [sanitize_eq_flatMap]

theorem esc_other (c : Char) (h : c ∉ escSpecial) : esc c = [c] := by
  simp only [escSpecial, List.mem_cons, List.not_mem_nil, not_or, or_false] at h
  obtain ⟨h1, h2, h3, h4, h5, h6, h7, h8, h9, h10, h11, h12, h13, h14⟩ := h
  simp only [esc, h1, h2, h3, h4, h5, h6, h7, h8, h9, h10, h11, h12, h13, h14, if_false]

/-- What the twelve replacements of `percent_encode` make of one character. -/
def pct (c : Char) : Str :=
  if c = '%' then c!"%25"
  else if c = '#' then c!"%23"
  else if c = '[' then c!"%5B"
  else if c = ']' then c!"%5D"
  else if c = '!' then c!"%21"
  else if c = '$' then c!"%24"
  else if c = '\'' then c!"%27"
  else if c = '(' then c!"%28"
  else if c = ')' then c!"%29"
  else if c = '*' then c!"%2A"
  else if c = ' ' then c!"%20"
  else if c = '\\' then c!"%5C"
  else [c]

def pctSpecial : List Char := c!"%#[]!$'()* \\"

theorem percentEncode_append (a b : Str) : percentEncode (a ++ b) = percentEncode a ++ percentEncode b := by
  simp [percentEncode, replaceC_append]

theorem percentEncode_single_special : ∀ c ∈ pctSpecial, percentEncode [c] = pct c := by decide

theorem percentEncode_single (c : Char) : percentEncode [c] = pct c := by
  by_cases h : c ∈ pctSpecial
  · exact percentEncode_single_special c h
  · simp only [pctSpecial, List.mem_cons, List.not_mem_nil, not_or, or_false] at h
    obtain ⟨h1, h2, h3, h4, h5, h6, h7, h8, h9, h10, h11, h12⟩ := h
    simp only [percentEncode, replaceC_single, pct, h1, h2, h3, h4, h5, h6, h7, h8, h9, h10, h11, h12, if_false]

theorem percentEncode_eq_flatMap : ∀ s : Str, percentEncode s = s.flatMap pct
  | [] => rfl
  | c :: s => by
    have := percentEncode_append [c] s
    rw [List.singleton_append] at this
    rw [this, percentEncode_single, percentEncode_eq_flatMap s]
    rfl

theorem percentEncode_cons (c : Char) (s : Str) : percentEncode (c :: s) = pct c ++ percentEncode s := by
  simp [percentEncode_eq_flatMap]

theorem pct_other (c : Char) (h : c ∉ pctSpecial) : pct c = [c] := by
  simp only [pctSpecial, List.mem_cons, List.not_mem_nil, not_or, or_false] at h
  obtain ⟨h1, h2, h3, h4, h5, h6, h7, h8, h9, h10, h11, h12⟩ := h
  simp only [pct, h1, h2, h3, h4, h5, h6, h7, h8, h9, h10, h11, h12, if_false]

/-- Only `&` starts a character reference. -/
theorem find_entity_none (c : Char) (cs : Str) (h : c ≠ '&') :
    entityTable.find? (fun e => e.1.isPrefixOf (c :: cs)) = none := by
  have h' : ¬ '&' = c := fun e => h e.symm
  simp [entityTable, List.isPrefixOf, h']

theorem htmlDecode_cons (c : Char) (cs : Str) (h : c ≠ '&') : htmlDecode (c :: cs) = c :: htmlDecode cs := by
  simp only [htmlDecode, decodeGo, find_entity_none c cs h]

theorem mem_escSpecial (P : Char → Prop) (h : ∀ c ∈ escSpecial, P c) (c : Char) (hc : c ∈ escSpecial) : P c := h c hc

theorem htmlDecode_esc (c : Char) (t : Str) :
    htmlDecode (esc c ++ t) = (if c = '\\' then [] else [c]) ++ htmlDecode t := by
  by_cases h : c ∈ escSpecial
  · simp only [escSpecial, List.mem_cons, List.not_mem_nil, or_false] at h
    rcases h with rfl | rfl | rfl | rfl | rfl | rfl | rfl | rfl | rfl | rfl | rfl | rfl | rfl | rfl <;> rfl
  · rw [esc_other c h]
    simp only [escSpecial, List.mem_cons, List.not_mem_nil, not_or, or_false] at h
    simp [htmlDecode_cons c t h.1, h.2.2.2.2.2.2.2.2.2.2.1]

theorem htmlDecode_sanitize : ∀ s : Str, htmlDecode (sanitize s) = s.filter (· ≠ '\\')
  | [] => rfl
  | c :: s => by
    rw [sanitize_cons, htmlDecode_esc, htmlDecode_sanitize s]
    by_cases h : c = '\\' <;> simp [h]

theorem percentDecode_cons (c : Char) (t : Str) (h : c ≠ '%') : percentDecode (c :: t) = c :: percentDecode t := by
  conv => lhs; unfold percentDecode
  split
  · next h1 => cases h1
  · next h1 => cases h1; exact absurd rfl h
  · next h1 => cases h1; rfl

theorem percentDecode_pct (c : Char) (t : Str) : percentDecode (pct c ++ t) = c :: percentDecode t := by
  by_cases h : c ∈ pctSpecial
  · simp only [pctSpecial, List.mem_cons, List.not_mem_nil, or_false] at h
    rcases h with rfl | rfl | rfl | rfl | rfl | rfl | rfl | rfl | rfl | rfl | rfl | rfl <;>
      simp [pct, percentDecode, hexVal] <;> rfl
  · rw [pct_other c h]
    simp only [pctSpecial, List.mem_cons, List.not_mem_nil, not_or, or_false] at h
    exact percentDecode_cons c t h.1

theorem percentDecode_percentEncode : ∀ s : Str, percentDecode (percentEncode s) = s
  | [] => by simp [percentEncode, replaceC, percentDecode]
  | c :: s => by rw [percentEncode_cons, percentDecode_pct, percentDecode_percentEncode s]

end Smd.Gfm
