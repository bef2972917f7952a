import Verif.Lemmas.Forms
import Verif.Lemmas.Documents

/-! Documents without an ending or with a list as ending, and parts of texts. -/

namespace Smd.Gfm
open Smd.Rs Smd.Spec

/-- Blocks of which the last ends with a line end. -/
theorem render_blocks (bs : List (Block × Nat)) (h : DocGood (fun s x => render s = .ok x) bs)
    (hl : (docHtml bs).getLast? = some '\n') : render (docSrc bs) = .ok (docHtml bs) := by
  have := render_doc (d := { before := 0, blocks := bs, ending := .none }) ⟨h, trivial, .inl rfl⟩
  simpa [Doc.src, Doc.html, Ending.src, endLine, hl] using this

/-- Blocks and an ending that is a list. -/
theorem render_blocks_list (bs : List (Block × Nat)) (e : Ending) (h : DocGood (fun s x => render s = .ok x) bs)
    (he : e.Good fun s x => render s = .ok x) (hk : (∃ l, e = .bullets l) ∨ (∃ l, e = .ordered l) ∨ ∃ l, e = .tasks l)
    (hb : ∀ b, bs.getLast? = some b → (if b.1.isPara then 2 else 1) ≤ b.2) :
    render (docSrc bs ++ e.src) = .ok (docHtml bs ++ e.html) := by
  have := render_doc (d := { before := 0, blocks := bs, ending := e }) ⟨h, he, .inr hb⟩
  rcases hk with ⟨l, rfl⟩ | ⟨l, rfl⟩ | ⟨l, rfl⟩ <;> simpa [Doc.src, Doc.html] using this

theorem infix_flatMap {α : Type} {f : α → Str} {l : List α} {a : α} {x : Str} (h : a ∈ l) (hx : x <:+: f a) : x <:+: l.flatMap f := by
  obtain ⟨l1, l2, rfl⟩ := List.append_of_mem h
  obtain ⟨u, v, e⟩ := hx
  refine ⟨l1.flatMap f ++ u, v ++ l2.flatMap f, ?_⟩
  rw [List.flatMap_append, List.flatMap_cons, ← e]
  simp

theorem mem_zip_right {α β : Type} : ∀ {l : List α} {m : List β}, l.length = m.length → ∀ b ∈ m, ∃ a, (a, b) ∈ l.zip m
  | [], [], _, b, h => by simp at h
  | a :: l, b' :: m, hl, b, h => by
    rcases List.mem_cons.mp h with rfl | h
    · exact ⟨a, by simp⟩
    · obtain ⟨a', ha⟩ := mem_zip_right (l := l) (m := m) (by simpa using hl) b h
      exact ⟨a', by simp [ha]⟩

theorem infix_mid (a x b : Str) : x <:+: a ++ x ++ b := ⟨a, b, rfl⟩

/-- A space and a tab inside a line are text, like the rest of the line. -/
theorem space_tab {r : Rec} {ig : List Char} {x : Char} {t : Str} (hx : isWs x = false) (hn : '\n' ∉ x :: t) (last : Option Token) :
    nextToken r ig last (c!" \t" ++ x :: t) = .ok (some (.plaintext (c!" \t" ++ x :: t), [])) := by
  have h1 : x ≠ ' ' := by rintro rfl; revert hx; decide
  have h2 : x ≠ '\t' := by rintro rfl; revert hx; decide
  have hu := untilTail_none (p := c!"\n") (s := x :: t) (by simp) (fun h => hn (infix_single h))
  have hsl : slice (' ' :: '\t' :: x :: t) [] = ' ' :: '\t' :: x :: t := by
    have := slice_self_append (' ' :: '\t' :: x :: t) []
    rwa [List.append_nil] at this
  have e : lexTabsSpaces last (' ' :: '\t' :: x :: t) = (.error (' ' :: '\t' :: x :: t), []) := by
    unfold lexTabsSpaces
    rw [List.length_cons, lexTabsSpacesGo]
    have e1 : (' ' :: '\t' :: x :: t).takeWhile (fun c => c == '\t' || c == ' ') = c!" \t" := by simp [h1, h2]
    have e2 : (' ' :: '\t' :: x :: t).dropWhile (fun c => c == '\t' || c == ' ') = x :: t := by simp [h1, h2]
    simp only [e1, e2, hu, hsl]
    simp
  show nextToken r ig last (' ' :: '\t' :: x :: t) = _
  rw [nextToken_ws (.inl rfl), e]
  rfl

end Smd.Gfm
