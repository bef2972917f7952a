import Verif.Lemmas.Iter

/-!
C01 and C02: the byte-level iterator of `gfm/src/iter.rs` reads a document character by character.

`Verif.Gfm.Iter` models the iterator on UTF-8 bytes and byte indices, with Rust's `is_char_boundary`. The specification
here only speaks of the document as a list of characters.
-/

namespace Smd.Gfm.Iter

/-- The operations the lexer performs on the iterator that move it. -/
inductive Op where
  | next
  | nextIfEq (c : Char)
  | consumeWhile (f : Bytes → Bool)
  | consumeUntilTail (tail : Str)
  | consumeUntilEnd
  | consumeLine
  | skipWhile (f : Bytes → Bool)

/-- One operation on the modelled iterator: what it returns and the new iterator. -/
def Op.apply : Op → MdIter → Outcome (Option Bytes × MdIter)
  | .next, it => .ok (Iter.next it)
  | .nextIfEq c, it => .ok (Iter.nextIfEq (enc [c]) it)
  | .consumeWhile f, it => .ok (Iter.consumeWhile f it)
  | .consumeUntilTail t, it => .ok (Iter.consumeUntilTail (enc t) it)
  | .consumeUntilEnd, it => .ok (Iter.consumeUntilEnd it)
  | .consumeLine, it => Iter.consumeLine it
  | .skipWhile f, it => .ok (none, Iter.skipWhile f it)

/-- A sequence of operations: everything returned, and the final iterator. -/
def runOps : List Op → MdIter → Outcome (List (Option Bytes) × MdIter)
  | [], it => .ok ([], it)
  | op :: ops, it =>
    op.apply it >>= fun r => runOps ops r.2 >>= fun rs => .ok (r.1 :: rs.1, rs.2)

/-- `it` reads `doc` and has `rest` left: its index is the byte length of the characters already read. -/
def At (doc : Str) (it : MdIter) (rest : Str) : Prop :=
  ∃ pre, doc = pre ++ rest ∧ it.bytes = enc doc ∧ it.index = (enc pre).length

theorem At.cur {doc : Str} {it : MdIter} {rest : Str} (h : At doc it rest) :
    ∃ pre, doc = pre ++ rest ∧ it = Iter.cur pre rest := by
  obtain ⟨pre, rfl, h1, h2⟩ := h
  exact ⟨pre, rfl, by cases it; simp_all [Iter.cur]⟩

theorem at_cur (pre rest : Str) : At (pre ++ rest) (Iter.cur pre rest) rest := ⟨pre, rfl, rfl, rfl⟩

theorem op_at (doc rest : Str) (it : MdIter) (h : At doc it rest) (op : Op) :
    ∃ out it' mid rest', op.apply it = .ok (out, it') ∧ rest = mid ++ rest' ∧ At doc it' rest' ∧
      ((∀ f, op ≠ .skipWhile f) → out.getD [] = enc mid) := by
  obtain ⟨pre, rfl, rfl⟩ := h.cur
  have mk : ∀ (out : Option Bytes) (mid rest' : Str), rest = mid ++ rest' →
      op.apply (Iter.cur pre rest) = .ok (out, Iter.cur (pre ++ mid) rest') →
      ((∀ f, op ≠ .skipWhile f) → out.getD [] = enc mid) →
      ∃ out it' mid rest', op.apply (Iter.cur pre rest) = .ok (out, it') ∧ rest = mid ++ rest' ∧
        At (pre ++ rest) it' rest' ∧ ((∀ f, op ≠ .skipWhile f) → out.getD [] = enc mid) := by
    intro out mid rest' e h1 h2
    subst e
    have := at_cur (pre ++ mid) rest'
    rw [List.append_assoc] at this
    exact ⟨out, _, mid, rest', h1, rfl, this, h2⟩
  cases op with
  | next =>
    cases rest with
    | nil => exact mk none [] [] rfl (by simp only [Op.apply, next_nil, List.append_nil]) (by simp)
    | cons c rest => exact mk (some (enc [c])) [c] rest rfl (by simp only [Op.apply, next_cons]) (by simp)
  | nextIfEq c =>
    cases rest with
    | nil => exact mk none [] [] rfl (by simp only [Op.apply, nextIfEq_cur]; simp) (by simp)
    | cons d rest =>
      by_cases h : d = c
      · subst h
        exact mk (some (enc [d])) [d] rest rfl (by simp only [Op.apply, nextIfEq_cur]; simp) (by simp)
      · exact mk none [] (d :: rest) rfl (by simp only [Op.apply, nextIfEq_cur]; simp [h]) (by simp)
  | consumeWhile f =>
    exact mk _ _ _ (split_while (fun c => f (enc [c])) rest).symm (by simp only [Op.apply, consumeWhile_cur]; rfl)
      (by simp)
  | consumeUntilTail t =>
    have e := untilTailGo_append t [] rest
    simp only [List.nil_append] at e
    exact mk _ _ _ e.symm (by simp only [Op.apply, consumeUntilTail_cur]; rfl) (by simp [untilTail])
  | consumeUntilEnd =>
    exact mk _ _ _ (split_while (fun _ => true) rest).symm
      (by simp only [Op.apply, consumeUntilEnd, consumeWhile_cur]; rfl) (by simp)
  | consumeLine =>
    by_cases hm : '\n' ∈ rest
    · exact mk _ _ _ (split_line rest hm)
        (by simp only [Op.apply, consumeLine_cur, lineAhead, List.contains_iff_mem, hm, if_true]; rfl) (by simp)
    · cases rest with
      | nil => exact mk none [] [] rfl (by simp only [Op.apply, consumeLine_cur, List.append_nil]; rfl) (by simp)
      | cons c rest =>
        exact mk (some (enc (c :: rest))) (c :: rest) [] (by simp)
          (by simp only [Op.apply, consumeLine_cur, lineAhead, List.contains_iff_mem, hm]; rfl) (by simp)
  | skipWhile f =>
    exact mk none _ _ (split_while (fun c => f (enc [c])) rest).symm (by simp only [Op.apply, skipWhile_cur])
      (by simp)

theorem runOps_at (doc : Str) : ∀ (ops : List Op) (it : MdIter) (rest : Str), At doc it rest →
    ∃ outs it' mid rest', runOps ops it = .ok (outs, it') ∧ rest = mid ++ rest' ∧ At doc it' rest' ∧
      ((∀ f, Op.skipWhile f ∉ ops) → (outs.map (fun o => o.getD [])).flatten = enc mid)
  | [], it, rest, h => ⟨[], it, [], rest, rfl, rfl, h, by simp⟩
  | op :: ops, it, rest, h => by
    obtain ⟨o1, it1, m1, r1, e1, rfl, h1, f1⟩ := op_at doc rest it h op
    obtain ⟨os, it2, m2, r2, e2, rfl, h2, f2⟩ := runOps_at doc ops it1 r1 h1
    refine ⟨o1 :: os, it2, m1 ++ m2, r2, by simp [runOps, e1, e2], by simp, h2, ?_⟩
    intro hns
    have a := f1 (fun f e => hns f (by simp [e]))
    have b := f2 (fun f hm => hns f (by simp [hm]))
    simp [a, b]

/-- **C01** (no panic, always on a character boundary). Whatever operations are performed on the iterator of a document,
none panics, and afterwards the iterator stands between two whole characters of the document. -/
theorem C01_always_on_boundary (doc : Str) (ops : List Op) :
    ∃ outs it pre rest, runOps ops (new doc) = .ok (outs, it) ∧ doc = pre ++ rest ∧
      it.bytes = enc doc ∧ it.index = (enc pre).length := by
  obtain ⟨outs, it, mid, rest, e, rfl, ⟨pre, e2, e3, e4⟩, _⟩ := runOps_at doc ops (new doc) doc ⟨[], rfl, rfl, rfl⟩
  exact ⟨outs, it, pre, rest, e, e2, e3, e4⟩

/-- **C01** (one whole character per step). Wherever the iterator stands, `peek` and `next` return exactly the next
character (all of its bytes), `next` moves just past it, and at the end both return nothing and `next` stays. -/
theorem C01_step_is_next_char (doc : Str) (ops : List Op) (outs : List (Option Bytes)) (it : MdIter)
    (h : runOps ops (new doc) = .ok (outs, it)) :
    ∃ rest, At doc it rest ∧ peek it = (rest.head?).map (fun c => enc [c]) ∧
      (next it).1 = (rest.head?).map (fun c => enc [c]) ∧ At doc (next it).2 rest.tail := by
  obtain ⟨outs', it', mid, rest, e, e1, hat, _⟩ := runOps_at doc ops (new doc) doc ⟨[], rfl, rfl, rfl⟩
  rw [e] at h
  injection h with h
  injection h with _ h
  subst h
  refine ⟨rest, hat, ?_⟩
  obtain ⟨pre, rfl, rfl⟩ := hat.cur
  cases rest with
  | nil => simp only [peek_nil, next_nil]; exact ⟨rfl, rfl, at_cur pre []⟩
  | cons c rest =>
    simp only [peek_cons, next_cons]
    refine ⟨rfl, rfl, ?_⟩
    have := at_cur (pre ++ [c]) rest
    simpa using this

/-- Calling `next` until it returns nothing, at most `n` times. -/
def collect : Nat → MdIter → List Bytes
  | 0, _ => []
  | n + 1, it =>
    match next it with
    | (some b, it') => b :: collect n it'
    | (none, _) => []

/-- **C01** (the whole document). Repeating `next` yields exactly the characters of the document in order. -/
theorem C01_collect_is_document (doc : Str) (n : Nat) (hn : doc.length ≤ n) :
    collect n (new doc) = doc.map (fun c => enc [c]) := by
  suffices h : ∀ (rest pre : Str) (n : Nat), rest.length ≤ n →
      collect n (cur pre rest) = rest.map (fun c => enc [c]) from h doc [] n hn
  intro rest
  induction rest with
  | nil =>
    intro pre n _
    cases n with
    | zero => rfl
    | succ n => simp [collect, next_nil]
  | cons c rest ih =>
    intro pre n hn
    cases n with
    | zero => simp at hn
    | succ n =>
      simp only [collect, next_cons]
      rw [ih (pre ++ [c]) n (by simpa using hn)]
      rfl

-- The hypotheses above are met by real documents: three characters of 1, 2 and 4 bytes.
example : collect 5 (new c!"aä𐍈") = [[0x61], [0xC3, 0xA4], [0xF0, 0x90, 0x8D, 0x88]] := by decide
example : (runOps [.next, .consumeWhile (fun b => b != enc ['𐍈'])] (new c!"aä𐍈")) =
    .ok ([some [0x61], some [0xC3, 0xA4]], ⟨enc c!"aä𐍈", 3⟩) := by decide

/-- **C02** (`consume_while_case_holds`). The result is the longest prefix of the remaining text all of whose characters
satisfy the predicate. -/
theorem C02_consumeWhile (doc rest : Str) (it : MdIter) (h : At doc it rest) (f : Bytes → Bool) :
    ∃ a b, rest = a ++ b ∧ (∀ c ∈ a, f (enc [c]) = true) ∧ (∀ c, b.head? = some c → f (enc [c]) = false) ∧
      (consumeWhile f it).1 = some (enc a) ∧ At doc (consumeWhile f it).2 b := by
  obtain ⟨pre, rfl, rfl⟩ := h.cur
  refine ⟨_, _, (split_while (fun c => f (enc [c])) rest).symm, mem_takeWhile_true _ rest, ?_, ?_, ?_⟩
  · intro c hc
    rcases dropWhile_cases (fun c => f (enc [c])) rest with ⟨h1, _⟩ | ⟨x, xs, h1, h2⟩
    · rw [h1] at hc; simp at hc
    · rw [h1] at hc; simp at hc; subst hc; exact h2
  · rw [consumeWhile_cur]
  · rw [consumeWhile_cur]
    have := at_cur (pre ++ rest.takeWhile (fun c => f (enc [c]))) (rest.dropWhile (fun c => f (enc [c])))
    rw [List.append_assoc, split_while] at this
    exact this

/-- **C02** (`consume_until_tail_is`). The result is the shortest prefix of the remaining text that ends with the tail,
and the whole remaining text if no prefix does. -/
theorem C02_consumeUntilTail (doc rest : Str) (it : MdIter) (h : At doc it rest) (tail : Str) :
    ∃ a b, rest = a ++ b ∧ (tail <:+ a ∨ b = [] ∧ ∀ a', a' <+: rest → ¬ tail <:+ a') ∧
      (∀ a', a' <+: rest → tail <:+ a' → a <+: a') ∧
      (consumeUntilTail (enc tail) it).1 = some (enc a) ∧ At doc (consumeUntilTail (enc tail) it).2 b := by
  obtain ⟨pre, rfl, rfl⟩ := h.cur
  have e := untilTailGo_append tail [] rest
  simp only [List.nil_append] at e
  obtain ⟨s1, s2⟩ := untilTailGo_spec tail [] rest (by
    intro a' ha' hne; exact absurd (List.prefix_nil.mp ha') hne)
  refine ⟨(untilTail tail rest).1, (untilTail tail rest).2, e.symm, ?_, ?_, ?_, ?_⟩
  · by_cases hs : tail <:+ (untilTail tail rest).1
    · exact .inl hs
    · right
      have hb : (untilTail tail rest).2 = [] := by
        by_cases hb : (untilTail tail rest).2 = []
        · exact hb
        · exact absurd (s1 hb) hs
      refine ⟨hb, ?_⟩
      intro a' ha' ht
      have e' : (untilTail tail rest).1 = rest := by
        have e2 : (untilTail tail rest).1 ++ (untilTail tail rest).2 = rest := e
        rw [hb] at e2; simpa using e2
      by_cases hne : a' = (untilTail tail rest).1
      · subst hne; exact hs ht
      · exact s2 a' (by rw [← e'] at ha'; exact ha') hne ht
  · intro a' ha' ht
    have hp : (untilTail tail rest).1 <+: rest := ⟨_, e⟩
    rcases List.prefix_or_prefix_of_prefix ha' hp with h1 | h1
    · by_cases hne : a' = (untilTail tail rest).1
      · rw [hne]; exact List.prefix_refl _
      · exact absurd ht (s2 a' h1 hne)
    · exact h1
  · rw [consumeUntilTail_cur]
  · rw [consumeUntilTail_cur]
    have := at_cur (pre ++ (untilTail tail rest).1) (untilTail tail rest).2
    have e2 : (untilTail tail rest).1 ++ (untilTail tail rest).2 = rest := e
    rw [List.append_assoc, e2] at this
    exact this

/-- **C02** (`consume_line_ahead`, `peek_line_ahead`). The line returned goes up to and including the first newline, or to
the end of the text when there is none; nothing is returned exactly at the end. Peeking returns the same. -/
theorem C02_line (doc rest : Str) (it : MdIter) (h : At doc it rest) :
    (rest = [] ∧ consumeLine it = .ok (none, it) ∧ peekLine it = .ok none) ∨
    (∃ l b it', rest = l ++ b ∧ l ≠ [] ∧ '\n' ∉ l.dropLast ∧ (b ≠ [] → l.getLast? = some '\n') ∧
      consumeLine it = .ok (some (enc l), it') ∧ At doc it' b ∧ peekLine it = .ok (some (enc l))) := by
  obtain ⟨pre, rfl, rfl⟩ := h.cur
  by_cases hm : '\n' ∈ rest
  · right
    have hl := split_line rest hm
    refine ⟨_, _, cur (pre ++ (rest.takeWhile (· != '\n') ++ ['\n'])) ((rest.dropWhile (· != '\n')).drop 1), hl, by simp, ?_, by simp, ?_, ?_, ?_⟩
    · simp only [List.dropLast_concat]
      intro hx
      have := mem_takeWhile_true _ _ _ hx
      simp at this
    · simp only [consumeLine_cur, lineAhead, List.contains_iff_mem, hm, if_true]
    · have := at_cur (pre ++ (rest.takeWhile (· != '\n') ++ ['\n'])) ((rest.dropWhile (· != '\n')).drop 1)
      rw [List.append_assoc, ← hl] at this
      exact this
    · simp [peekLine_cur, lineAhead, hm]
  · cases rest with
    | nil => left; exact ⟨rfl, by rw [consumeLine_cur]; rfl, by rw [peekLine_cur]; rfl⟩
    | cons c rest =>
      right
      refine ⟨c :: rest, [], cur (pre ++ c :: rest) [], by simp, by simp, ?_, by simp, ?_, ?_, ?_⟩
      · intro hx; exact hm (List.dropLast_subset _ hx)
      · simp only [consumeLine_cur, lineAhead, List.contains_iff_mem, hm]
        rfl
      · have := at_cur (pre ++ c :: rest) []
        simpa using this
      · simp [peekLine_cur, lineAhead, hm]

/-- **C02** (`get_substring_ahead`). Looking `n` bytes ahead returns the characters that make up exactly these bytes, and
nothing if `n` bytes ahead is not the end of a character of the document. -/
theorem C02_substringAhead (doc rest : Str) (it : MdIter) (h : At doc it rest) (n : Nat) (x : Bytes) :
    getSubstringAhead n it = some x ↔ ∃ a b, rest = a ++ b ∧ (enc a).length = n ∧ x = enc a := by
  obtain ⟨pre, rfl, rfl⟩ := h.cur
  constructor
  · intro hx
    unfold getSubstringAhead getRange at hx
    split at hx
    · next hc =>
      obtain ⟨p, q, e1, e2⟩ := (boundary_iff _ _).mp hc.2.2
      have hpre : pre <+: p := by
        rcases List.prefix_or_prefix_of_prefix (⟨rest, rfl⟩ : pre <+: pre ++ rest) ⟨q, e1.symm⟩ with h | h
        · exact h
        · obtain ⟨t, rfl⟩ := h
          simp only [cur, enc_append, List.length_append] at e2
          have : (enc t).length = 0 := by omega
          have : t = [] := enc_eq_nil (List.length_eq_zero_iff.mp this)
          subst this
          simp
      obtain ⟨a, rfl⟩ := hpre
      have hr : rest = a ++ q := by simpa using e1
      subst hr
      have hn : (enc a).length = n := by
        simp only [cur, enc_append, List.length_append] at e2
        omega
      refine ⟨a, q, rfl, hn, ?_⟩
      have := Option.some.inj hx
      rw [← this]
      simp [cur, ← hn]
    · simp at hx
  · rintro ⟨a, b, rfl, rfl, rfl⟩
    have := getRange_cur pre a b
    simpa [getSubstringAhead, cur] using this

/-- **C02** (the text between a saved index and the current one). If the iterator is saved and then moved by any
operations, `get_substring_from` the saved index is exactly the text consumed in between; and when every operation
returns what it consumes, it is the concatenation of what they returned. -/
theorem C02_substringFrom (doc rest : Str) (it : MdIter) (h : At doc it rest) (ops : List Op) :
    ∃ outs it' mid rest', runOps ops it = .ok (outs, it') ∧ rest = mid ++ rest' ∧ At doc it' rest' ∧
      getSubstringFrom it.index it' = some (enc mid) ∧
      ((∀ f, Op.skipWhile f ∉ ops) → (outs.map (fun o => o.getD [])).flatten = enc mid) := by
  obtain ⟨outs, it', mid, rest', e1, e2, e3, e4⟩ := runOps_at doc ops it rest h
  refine ⟨outs, it', mid, rest', e1, e2, e3, ?_, e4⟩
  obtain ⟨pre, hd, hb, hi⟩ := h
  obtain ⟨pre', hd', hb', hi'⟩ := e3
  subst e2
  have hp : pre' = pre ++ mid := by
    have : pre' ++ rest' = (pre ++ mid) ++ rest' := by rw [← hd', hd]; simp
    exact List.append_cancel_right this
  subst hp
  unfold getSubstringFrom
  rw [hi, hi', hb', hd]
  exact getRange_cur pre mid rest'

/-- The cursor used by the lexer model: `slice` of the remaining texts is `get_substring_from`. -/
theorem C02_slice (pre mid rest : Str) :
    getSubstringFrom (cur pre (mid ++ rest)).index (cur (pre ++ mid) rest) = some (enc (slice (mid ++ rest) rest)) := by
  have := getRange_cur pre mid rest
  simpa [getSubstringFrom, cur, slice] using this

-- Non-vacuity: an iterator in the middle of a document with multi-byte characters.
example : At c!"aä𐍈b" ⟨enc c!"aä𐍈b", 3⟩ c!"𐍈b" := ⟨c!"aä", by decide, rfl, by decide⟩
example : (consumeUntilTail (enc c!"x") ⟨enc c!"aäxb", 1⟩).1 = some (enc c!"äx") := by decide

end Smd.Gfm.Iter
