import Verif.Lemmas.Edit

/-!
C126: an edit changes nothing before it. The lexer looks at most two characters ahead of the token it makes, so what it has made of the
beginning of a document stays, whatever follows.
-/

namespace Smd.Gfm
open Smd.Rs Smd.Spec

/-- C126: one token depends only on the characters it consumes and the two that follow. -/
theorem C126_token (r : Rec) (ig : List Char) (last : Option Token) (p b b' : Str) (t : Token) (hb : b.take 2 = b'.take 2)
    (h : nextToken r ig last (p ++ b) = .ok (some (t, b))) : nextToken r ig last (p ++ b') = .ok (some (t, b')) :=
  nextToken_local (.of_take hb) h

example : nextToken self [] none (c!"- a\n" ++ c!"bc") = .ok (some (.unorderedListEntry [.plaintext c!" a"], c!"bc")) ∧
    (c!"bc").take 2 = (c!"bc [").take 2 := ⟨rfl, rfl⟩

/-- The text after the first `k` pieces of one document and the text after the same pieces in another one look alike. -/
theorem drop_agree {x y p : Str} {ps : List Str} {k : Nat} (hx : p <+: x) (hy : p <+: y) (hf : ps.flatten = x)
    (hk : (ps.take k).flatten.length + 2 ≤ p.length) :
    k ≤ ps.length ∧ ∃ b', y = (ps.take k).flatten ++ b' ∧ Agree (ps.drop k).flatten b' := by
  have hx' : (ps.take k).flatten ++ (ps.drop k).flatten = x := by rw [← List.flatten_append, List.take_append_drop, hf]
  obtain ⟨z, rfl⟩ := hx
  obtain ⟨w, rfl⟩ := hy
  have hp : (ps.take k).flatten <+: p := by
    apply List.prefix_of_prefix_length_le (l₃ := p ++ z)
    · exact ⟨_, hx'⟩
    · exact List.prefix_append _ _
    · omega
  obtain ⟨m, hm⟩ := hp
  constructor
  · by_contra hc
    rw [List.take_of_length_le (by omega), hf] at hk
    simp at hk
    omega
  · refine ⟨m ++ w, by rw [← hm, List.append_assoc], .of_take ?_⟩
    have e : (ps.drop k).flatten = m ++ z := by
      rw [← hm, List.append_assoc] at hx'
      exact List.append_cancel_left hx'
    have hl : 2 ≤ m.length := by
      rw [← hm, List.length_append] at hk
      omega
    rw [e, List.take_append_of_le_length hl, List.take_append_of_le_length hl]

/-- C126: two documents that begin with the same `p` have the same tokens, made of the same pieces, as long as these end at least two
characters before the end of `p`. -/
theorem C126_tokens (x y p : Str) (hx : p <+: x) (hy : p <+: y) (ts us : List Token) (ps qs : List Str)
    (hc : Cut self [] none ts ps) (hf : ps.flatten = x) (hd : Cut self [] none us qs) (hg : qs.flatten = y) (k : Nat)
    (hk : (ps.take k).flatten.length + 2 ≤ p.length) : us.take k = ts.take k ∧ qs.take k = ps.take k := by
  obtain ⟨h1, b', h2, A⟩ := drop_agree hx hy hf hk
  exact hc.same k hd h1 A (by rw [hg, h2])

/-- C126: the lexer can go on from there. Lexing the other document, whether it succeeds or not, is lexing its part after these pieces with
these tokens already made. -/
theorem C126_resume (x p : Str) (z : Str) (hx : p <+: x) (ts : List Token) (ps : List Str) (hc : Cut self [] none ts ps)
    (hf : ps.flatten = x) (k : Nat) (hk : (ps.take k).flatten.length + 2 ≤ p.length) :
    lex (p ++ z) = lexLoop self [] (z.length + p.length + 1) (ts.take k) ((p ++ z).drop (ps.take k).flatten.length) := by
  obtain ⟨h1, b', h2, A⟩ := drop_agree hx (List.prefix_append p z) hf hk
  have h3 := (hc.split k).local A _ rfl
  rw [lex_unfold, h2]
  unfold lexWith
  rw [h3.loop _ [] rfl (by omega), List.drop_left, List.nil_append]
  refine lexLoop_fuel _ _ _ _ (by omega) ?_
  have := congrArg List.length h2
  simp only [List.length_append] at this
  omega

/-- C126: both renderings begin with what these tokens have been made into. -/
theorem C126_html (x y p : Str) (hx : p <+: x) (hy : p <+: y) (ts : List Token) (ps : List Str) (hc : Cut self [] none ts ps)
    (hf : ps.flatten = x) (k : Nat) (hk : (ps.take k).flatten.length + 2 ≤ p.length) (gx gy : Str) (hgx : render x = .ok gx) (hgy : render y = .ok gy) :
    ∃ st, parseToks self (ts.take k) {} = .ok st ∧ st.html <+: gx ∧ st.html <+: gy := by
  obtain ⟨h1, b', h2, A⟩ := drop_agree hx hy hf hk
  rw [render_unfold] at hgx hgy
  obtain ⟨us, h3, h4⟩ := Outcome.bind_ok' hgx
  obtain ⟨vs, h5, h6⟩ := Outcome.bind_ok' hgy
  rw [lexWith_ok_iff] at h3 h5
  have hs := hc.split k
  rw [← List.flatten_append, List.take_append_drop, hf] at hs
  obtain ⟨u', rfl, -⟩ := hs.split h3
  have hs' := (hc.split k).local A _ rfl
  rw [← h2] at hs'
  obtain ⟨v', rfl, -⟩ := hs'.split h5
  have hp : ∃ st, parseToks self (ts.take k) {} = .ok st := by
    unfold parseDoc at h4
    rw [parseToks_append] at h4
    obtain ⟨s1, h7, -⟩ := Outcome.bind_ok' h4
    obtain ⟨s2, h8, -⟩ := Outcome.bind_ok' h7
    exact ⟨s2, h8⟩
  obtain ⟨st, hst⟩ := hp
  exact ⟨st, hst, parseDoc_prefix hst h4, parseDoc_prefix hst h6⟩

/-- Two documents: the words before the edit are the same tokens, and their HTML is the same. -/
example : ∃ ts ps, Cut self [] none ts ps ∧ ps.flatten = c!"a\nb *c*" ∧ (ps.take 4).flatten.length + 2 ≤ (c!"a\nb *c").length ∧
    render c!"a\nb *c*" = .ok c!"<p>ab<em>c</em></p>\n" ∧ render c!"a\nb *c [" = .ok c!"<p>ab<em>c &lbrack;</em></p>\n" := by
  refine ⟨[.plaintext c!"a", .plaintext c!"\n", .plaintext c!"b", .plaintext c!" ", .italic c!"c"],
    [c!"a", c!"\n", c!"b", c!" ", c!"*c*"], ⟨rfl, rfl, rfl, rfl, rfl, trivial⟩, rfl, by decide, by decide +kernel, by decide +kernel⟩

/-- C126: two characters are needed. These documents agree on one character after the first token of the first one, and begin with
different tokens. -/
theorem C126_two_needed : ∃ (x y p : Str) (ts us : List Token) (ps qs : List Str), p <+: x ∧ p <+: y ∧ Cut self [] none ts ps ∧ ps.flatten = x ∧
    Cut self [] none us qs ∧ qs.flatten = y ∧ (ps.take 1).flatten.length + 1 ≤ p.length ∧ us.take 1 ≠ ts.take 1 := by
  refine ⟨c!"- a\n\nb", c!"- a\n\n\tb", c!"- a\n\n", [.unorderedListEntry [.plaintext c!" a"], .plaintext c!"\n", .plaintext c!"b"],
    [.unorderedListEntry [.plaintext c!" a", .plaintext c!"b"]], [c!"- a\n", c!"\n", c!"b"], [c!"- a\n\n\tb"],
    ⟨c!"b", rfl⟩, ⟨c!"\tb", rfl⟩, ⟨rfl, rfl, rfl, trivial⟩, rfl, ⟨rfl, trivial⟩, rfl, by decide, by simp⟩

end Smd.Gfm
