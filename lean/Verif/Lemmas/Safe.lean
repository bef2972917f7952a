import Verif.Lemmas.Chunks
import Verif.Lemmas.Fuel
import Verif.Props.Links

/-! The output of `Parser::render` consists of tags and text, with balanced tags. -/

namespace Smd.Gfm
open Smd.Rs Smd.Spec

variable {q U N : Prop}

/-! ### Links -/

theorem percentEncode_mem {c : Char} {x : Str} (h : c ∈ percentEncode x) (hc : c ∉ c!"%0123456789ABCDEF") : c ∈ x := by
  rw [percentEncode_eq_flatMap] at h
  obtain ⟨d, hd, hm⟩ := List.mem_flatMap.mp h
  by_cases hs : d ∈ pctSpecial
  · exfalso
    have : ∀ d ∈ pctSpecial, ∀ c ∈ pct d, c ∈ c!"%0123456789ABCDEF" := by decide
    exact hc (this d hs c hm)
  · rw [pct_other d hs] at hm
    simp at hm
    exact hm ▸ hd

/-- `<` and `"` of an href come from the source. -/
theorem display_mem {l : Str} {u : ValidURL} {c : Char} (hv : validateLink l = .ok u) (hc : c = '<' ∨ c = '"')
    (h : c ∉ l) : c ∉ u.display := by
  obtain ⟨h1, h2, h3⟩ := display_parts hv
  rw [h1]
  intro hm
  have cc : c ∉ c!"mailto" ∧ c ∉ c!"http" ∧ c ≠ ':' ∧ c ∉ c!"&amp;" ∧ c ∉ c!"%0123456789ABCDEF" := by
    rcases hc with rfl | rfl <;> decide
  rcases List.mem_append.mp hm with hm | hm
  · rcases h3 with ⟨e, _⟩ | ⟨e, _⟩ | ⟨e, _⟩
    · rw [e] at hm
      exact h (mem_of_mem_takeWhile _ _ _ hm)
    · rw [e] at hm; exact cc.1 hm
    · rw [e] at hm; exact cc.2.1 hm
  · rcases List.mem_cons.mp hm with hm | hm
    · exact cc.2.2.1 hm
    · rw [h2] at hm
      rcases mem_replaceC hm with hm | hm
      · exact h (content_sublist hv _ (percentEncode_mem hm cc.2.2.2.2))
      · exact cc.2.2.2.1 hm

theorem display_href {l : Str} {u : ValidURL} (hv : validateLink l = .ok u) : SafeHref u.display := by
  obtain ⟨h1, h2, h3⟩ := display_parts hv
  refine .inr (.inr ⟨by rw [h1]; simp, ?_, C06_no_javascript l u hv⟩)
  have hall : ∀ c ∈ schemeAscii, c.isAlphanum = true ∨ c ∈ c!"+.-" := by decide
  rcases h3 with ⟨e, sc, hs⟩ | ⟨e, _⟩ | ⟨e, _⟩
  · rw [e]
    exact fun c hc => hall c ((sourceScheme_some hs).2.2.1 c hc)
  · rw [e]; decide
  · rw [e]; decide

theorem display_safe {l : Str} {u : ValidURL} (hv : validateLink l = .ok u) (h : '<' ∉ l ∧ (q → '"' ∉ l)) :
    SafeAttr q c!"href" u.display :=
  ⟨by decide, display_mem hv (.inl rfl) h.1, fun hq => display_mem hv (.inr rfl) (h.2 hq), fun _ => display_href hv⟩

theorem fmtUnsafe_lt {l : Str} {u : ValidURL} (hv : validateLink l = .ok u) (h : '<' ∉ l) : '<' ∉ u.fmtUnsafe := by
  have hcont : '<' ∉ replaceC '&' c!"&amp;" u.content :=
    not_mem_replaceC (fun hm => h (content_sublist hv _ hm)) (by decide)
  obtain ⟨_, _, _, _, h4⟩ := validateLink_ok hv
  have hsc : ∀ sc, sourceScheme l = some sc → '<' ∉ sc.display := fun sc hs hm => by
    rw [(sourceScheme_some hs).2.1] at hm
    exact h (mem_of_mem_takeWhile _ _ _ hm)
  have hall : ∀ sc, u.scheme = some sc → '<' ∉ sc.display := by
    rcases h4 with ⟨sc, hs, rfl, _⟩ | ⟨hs, rfl, hc, _⟩ | ⟨sc, hs, rfl, hc⟩ | ⟨hs, rfl, hc⟩
    · intro sc' e; injection e with e; subst e; exact hsc _ hs
    · intro sc' e; injection e with e; subst e; decide
    · intro sc' e; injection e with e; subst e; exact hsc _ hs
    · intro sc' e; cases e
  unfold ValidURL.fmtUnsafe
  simp only
  split
  · simp [hcont]
  · exact hcont
  · next sc _ e => simp [hcont, hall sc e]

theorem takeWhile_of_no_ws {l x : Str} (h : ∀ c ∈ l, isWs c = false) : l <+: (l ++ x).takeWhile (· != ' ') := by
  rw [List.takeWhile_append_of_pos]
  · exact List.prefix_append _ _
  · intro c hc
    simp only [bne_iff_ne, ne_eq]
    rintro rfl
    have := h _ hc
    revert this
    decide

/-! ### Documents -/

theorem _root_.Smd.Spec.SafeSource.infix {d e : Str} (h : SafeSource q d) (he : e <:+: d) : SafeSource q e :=
  ⟨h.note.imp (fun h1 h2 => h1 (h2.trans he)) (fun h1 h2 => h1 (he.subset h2)),
    fun x hx => h.target x (hx.trans he), fun x hx => h.auto x (hx.trans he)⟩

theorem _root_.Smd.Spec.SafeSource.of_clean {d : Str} (h : '<' ∉ d) (h2 : ']' ∉ d) : SafeSource q d :=
  ⟨.inr h, fun x hx => absurd (hx.subset (by simp)) h2, fun x hx => absurd (hx.subset (by simp)) h⟩

theorem san_bracket (x : Str) : ']' ∉ sanitize x := C03_no_delimiters x ']' (by decide)
theorem san_open (x : Str) : '[' ∉ sanitize x := C03_no_delimiters x '[' (by decide)

/-! ### Tokens -/

/-- What makes the output of a token balanced. `N`: tasks are allowed, but no ordered entries; else the other way round. -/
def OkTok (q U N : Prop) (r : Rec) (t : Token) : Prop :=
  (∀ k h, IsKid t k → r.render [] k = .ok h → Bal (SafeAttr q) U h) ∧
  match t with
  | .plaintext x => ¬ c!"[^" <:+: x ∨ '<' ∉ x
  | .header l t lbl => 1 ≤ l ∧ l ≤ 6 ∧ Bal (SafeAttr q) U t ∧ lbl = none
  | .image l t => (∃ x, t = some x) ∧ '<' ∉ l ∧ (q → '"' ∉ l)
  | .link u t hv => SafeAttr q c!"href" u.display ∧
      ((∃ x, t = some x) ∧ (∀ x, hv = some x → '<' ∉ x) ∨ t = none ∧ hv = none ∧ '<' ∉ u.fmtUnsafe)
  | .taskListItem _ _ => U → N
  | .orderedListEntry _ => U → ¬ N
  | .table _ rows => ∀ row ∈ rows, ∀ c ∈ row, ∀ t ∈ c.2, t.isUsableInTable = true
  | _ => True

/-- `i` at the name `m`, 0 elsewhere. -/
def atN (m : Str) (i : Int) (n : Str) : Int := if n = m then i else 0

theorem atN_neg (m : Str) (i : Int) (n : Str) : atN m (-i) n = - atN m i n := by
  unfold atN; split <;> simp

theorem atN_add (m : Str) (i j : Int) (n : Str) : atN m (i + j) n = atN m i n + atN m j n := by
  unfold atN; split <;> simp

theorem atN_sub (m : Str) (i j : Int) (n : Str) : atN m (i - j) n = atN m i n - atN m j n := by
  unfold atN; split <;> simp

theorem atN_zero (m n : Str) : atN m 0 n = 0 := by
  unfold atN; split <;> rfl

def b2i (b : Bool) : Int := if b then 1 else 0

theorem b2i_true : b2i true = 1 := rfl
theorem b2i_false : b2i false = 0 := rfl

/-- The tags that are open in a state. -/
def bal (st : PState) (n : Str) : Int :=
  atN c!"p" (b2i st.inPara) n + atN c!"blockquote" st.quoteLevel n + atN c!"ol" (b2i st.inOl) n +
  atN c!"ul" (b2i st.inUl) n + atN c!"ul" (b2i st.inTask) n + atN c!"pre" (b2i st.inCode) n + atN c!"code" (b2i st.inCode) n

/-- Sums of open tags. -/
macro "balance" "[" xs:Lean.Parser.Tactic.simpLemma,* "]" : tactic =>
  `(tactic| (simp only [bal, PState.push, b2i_true, b2i_false, atN_zero, atN_neg, atN_sub, atN_add, Int.neg_mul, Int.one_mul,
      Int.natCast_zero, $xs,*]; try omega))

structure Inv (q U : Prop) (st : PState) : Prop where
  off : Off (SafeAttr q) U (bal st) st.html

theorem Inv.push {st : PState} {x : Str} (h : Inv q U st) (hx : Bal (SafeAttr q) U x) : Inv q U (st.push x) :=
  ⟨Off.appendBal safe_noLt h.off hx⟩

theorem Inv.change {st st' : PState} {g : Str → Int} {x : Str} (h : Inv q U st) (hx : Off (SafeAttr q) U g x)
    (e : st'.html = st.html ++ x) (hb : ∀ n, bal st n + g n = bal st' n) : Inv q U st' :=
  ⟨by rw [e]; exact (Off.append safe_noLt h.off hx).cast fun n _ _ => hb n⟩

theorem off_close {m x : Str} (hm : m ∈ elementNames) (tail : Str) (hx : x = closeTag m ++ tail) (ht : '<' ∉ tail) :
    Off (SafeAttr q) U (atN m (-1)) x := by
  subst hx
  exact Off.appendBal safe_noLt (Off.closing hm) (.text ht)

theorem off_open {m x : Str} {attrs : List (Str × Str)} (hm : m ∈ elementNames) (ha : ∀ a ∈ attrs, SafeAttr q a.1 a.2)
    (tail : Str) (hx : x = openTag m attrs ++ tail) (ht : '<' ∉ tail) :
    Off (SafeAttr q) U (atN m 1) x := by
  subst hx
  exact Off.appendBal safe_noLt (Off.opening safe_noLt hm ha) (.text ht)

theorem off_rep {m x : Str} {i : Int} (hx : Off (SafeAttr q) U (atN m i) x) :
    ∀ k : Nat, Off (SafeAttr q) U (atN m (i * k)) (rep k x)
  | 0 => by
    have : rep 0 x = [] := rfl
    rw [this]
    exact Bal.nil.cast (by simp [atN_zero])
  | k + 1 => by
    have : rep (k + 1) x = x ++ rep k x := by simp [rep, List.replicate_succ]
    rw [this]
    refine (Off.append safe_noLt hx (off_rep hx k)).cast fun n _ _ => ?_
    rw [← atN_add]
    congr 1
    push_cast
    rw [Int.mul_add]
    omega

theorem ensurePara_inv {st : PState} (h : Inv q U st) : Inv q U st.ensurePara := by
  unfold PState.ensurePara
  split
  · next hp =>
    refine h.change (off_open (m := c!"p") (attrs := []) (by decide) (by simp) [] rfl (by simp)) rfl fun n => ?_
    simp at hp
    balance [hp]
  · exact h

theorem ite_ind {P : PState → Prop} {c : Prop} [Decidable c] {a b : PState} (ha : c → P a) (hb : ¬ c → P b) :
    P (if c then a else b) := by
  by_cases h : c
  · rw [if_pos h]; exact ha h
  · rw [if_neg h]; exact hb h

theorem step1_inv (t : Token) {st : PState} (h : Inv q U st) : Inv q U (step1 t st) := by
  unfold step1
  refine ite_ind (fun _ => h) fun _ => ?_
  refine ite_ind (fun _ => h) fun _ => ?_
  refine ite_ind (fun _ => h) fun _ => ?_
  refine ite_ind (fun _ => h) fun _ => ?_
  refine ite_ind (fun hp => ?_) fun _ => ?_
  · simp at hp
    refine Inv.change (st := { st with quoteLevel := 0 }.push (rep st.quoteLevel c!"</blockquote>"))
      (h.change (off_rep (off_close (m := c!"blockquote") (by decide) [] rfl (by simp)) st.quoteLevel) rfl fun n => ?_)
      (off_open (m := c!"p") (attrs := []) (by decide) (by simp) [] rfl (by simp)) rfl fun n => ?_
    · balance []
    · balance [hp.2]
  refine ite_ind (fun ho => ?_) fun _ => ?_
  · refine ensurePara_inv (h.change (off_close (m := c!"ol") (by decide) c!"\n" rfl (by decide)) rfl fun n => ?_)
    balance [ho]
  refine ite_ind (fun ho => ?_) fun _ => ?_
  · refine ensurePara_inv (h.change (off_close (m := c!"ul") (by decide) c!"\n" rfl (by decide)) rfl fun n => ?_)
    balance [ho]
  refine ite_ind (fun ho => ?_) fun _ => ?_
  · refine ensurePara_inv (h.change (off_close (m := c!"ul") (by decide) c!"\n" rfl (by decide)) rfl fun n => ?_)
    balance [ho]
  refine ite_ind (fun hp => ?_) fun _ => ?_
  · simp at hp
    refine h.change (off_close (m := c!"p") (by decide) c!"\n" rfl (by decide)) rfl fun n => ?_
    balance [hp.2]
  refine ite_ind (fun _ => h) fun _ => ?_
  refine ite_ind (fun hp => ?_) fun _ => ?_
  · simp at hp
    refine Inv.change (g := fun n => atN c!"pre" 1 n + atN c!"code" 1 n) h ?_ rfl fun n => ?_
    · rw [preCode_eq]
      exact Off.append safe_noLt (off_open (by decide) (by simp) [] (List.append_nil _).symm (by simp)) (off_open (by decide) (by simp) [] (List.append_nil _).symm (by simp))
    · balance [hp.2]
  exact h

theorem entryOut_bal (r : Rec) : ∀ (ts : List Token) (h : Str),
    (∀ x, Token.plaintext x ∈ ts → ∀ h, r.render [] (entryArg x) = .ok h → Bal (SafeAttr q) U h) →
    entryOut r ts = .ok h → Bal (SafeAttr q) U h
  | [], h, _, e => by injection e with e; subst e; exact .nil
  | t :: ts, h, hk, e => by
    have ih := fun h => entryOut_bal r ts h (fun x hx => hk x (by simp [hx]))
    cases t with
    | plaintext x =>
      simp only [entryOut] at e
      obtain ⟨h1, e1, e⟩ := Outcome.bind_ok' e
      obtain ⟨h2, e2, e⟩ := Outcome.bind_ok' e
      injection e with e
      subst e
      exact Bal.app (Off.pre safe_noLt (hk x (by simp) h1 e1)) (ih h2 e2)
    | _ => simp only [entryOut] at e; exact ih h e

theorem quoteTags_off (l k : Nat) :
    Off (SafeAttr q) U (atN c!"blockquote" ((l : Int) - k)) (quoteTags l k) := by
  unfold quoteTags
  split
  · next h => subst h; exact Bal.nil.cast (by simp [atN_zero])
  · split
    · refine (off_rep (off_close (m := c!"blockquote") (by decide) [] rfl (by simp)) (k - l)).cast fun n _ _ => ?_
      congr 1
      omega
    · refine (off_rep (off_open (m := c!"blockquote") (attrs := []) (by decide) (by simp) c!"\n" rfl (by decide))
        (l - k)).cast fun n _ _ => ?_
      congr 1
      omega

theorem quoteStep_inv (r : Rec) (l : Nat) (x : Str) {st st' : PState} (h : Inv q U st)
    (hk : ∀ h, r.render [] (quoteArg x) = .ok h → Bal (SafeAttr q) U h) (e : quoteStep r l x st = .ok st') :
    Inv q U st' := by
  unfold quoteStep at e
  simp only at e
  have h1 : Inv q U (if st.inPara then { st with inPara := false }.push c!"</p>" else st) := by
    split
    · next hp =>
      refine h.change (off_close (m := c!"p") (by decide) [] rfl (by simp)) rfl fun n => ?_
      balance [hp]
    · exact h
  generalize (if st.inPara then { st with inPara := false }.push c!"</p>" else st) = st1 at *
  have h2 : Inv q U ({ st1 with quoteLevel := l }.push (quoteTags l st1.quoteLevel)) := by
    refine h1.change (quoteTags_off l st1.quoteLevel) rfl fun n => ?_
    balance []
  split at e
  · injection e with e
    subst e
    exact h2
  · obtain ⟨y, e1, e⟩ := Outcome.bind_ok' e
    injection e with e
    subst e
    exact h2.push (Off.tab safe_noLt safe_tab (hk y e1))

theorem elem0 {m x y : Str} (hm : m ∈ elementNames) (e : y = openTag m [] ++ x ++ closeTag m) (hx : Bal (SafeAttr q) U x) :
    Bal (SafeAttr q) U y := by
  subst e
  exact Bal.wrap hm (by simp) rfl rfl hx

theorem step2_inv (r : Rec) (t : Token) {st st' : PState} (h : Inv q U st) (ok : OkTok q U N r t)
    (e : step2 r t st = .ok st') : Inv q U st' := by
  obtain ⟨hk, ok⟩ := ok
  cases t with
  | plaintext x =>
    simp only [step2] at e
    split at e
    · injection e with e; subst e; exact h
    · injection e with e; subst e; exact h.push (plainOut_bal ok)
  | header l x lbl =>
    obtain ⟨h1, h2, h3, rfl⟩ := ok
    injection e with e; subst e
    exact h.push (headerOut_bal h1 h2 h3)
  | orderedListEntry x =>
    injection e with e; subst e
    refine Inv.push ?_ ?_
    · split
      · next hp =>
        refine h.change (off_open (m := c!"ol") (attrs := []) (by decide) (by simp) c!"\n" rfl (by decide)) rfl fun n => ?_
        simp at hp
        balance [hp]
      · exact h
    · have : c!"<li>\n" ++ sanitize x ++ c!"</li>\n" = (openTag c!"li" [] ++ (c!"\n" ++ sanitize x) ++ closeTag c!"li") ++ c!"\n" := by
        simp [openTag, closeTag]
      rw [this]
      exact Bal.app (elem0 (by decide) rfl (Bal.app (.text (by decide)) (.san _))) (.text (by decide))
  | unorderedListEntry toks =>
    simp only [step2] at e
    obtain ⟨y, e1, e⟩ := Outcome.bind_ok' e
    injection e with e; subst e
    have hy := entryOut_bal r toks y (fun x hx h' => hk _ h' ⟨x, hx, rfl⟩) e1
    have h1 : Inv q U (if !st.inUl then { st with inUl := true }.push c!"<ul>\n" else st) := by
      split
      · next hp =>
        refine h.change (off_open (m := c!"ul") (attrs := []) (by decide) (by simp) c!"\n" rfl (by decide)) rfl fun n => ?_
        simp at hp
        balance [hp]
      · exact h
    generalize (if !st.inUl then { st with inUl := true }.push c!"<ul>\n" else st) = st1 at *
    have key : ∀ z : Str, '<' ∉ z → Inv q U ((((st1.push c!"<li>").push z).push y).push c!"</li>\n") := by
      intro z hz
      have e : (((st1.push c!"<li>").push z).push y).push c!"</li>\n" =
          st1.push ((openTag c!"li" [] ++ (z ++ y) ++ closeTag c!"li") ++ c!"\n") := by
        simp [PState.push, openTag, closeTag]
      rw [e]
      exact h1.push (Bal.app (elem0 (by decide) rfl (Bal.app (.text hz) hy)) (.text (by decide)))
    split
    · exact key c!"\n" (by decide)
    · have := key [] (by simp)
      simpa only [PState.push, List.append_nil] using this
  | image l x =>
    obtain ⟨⟨x, rfl⟩, h2⟩ := ok
    injection e with e; subst e
    exact h.push (imageOut_bal h2)
  | link u x hv =>
    obtain ⟨h1, ⟨⟨x, rfl⟩, h2⟩ | ⟨rfl, rfl, h2⟩⟩ := ok
    · injection e with e; subst e
      exact h.push (linkOut_bal h1 h2)
    · injection e with e; subst e
      exact h.push (autoOut_bal h1 h2)
  | italic x =>
    injection e with e; subst e
    exact h.push (elem0 (m := c!"em") (by decide) rfl (.san _))
  | bold x =>
    injection e with e; subst e
    exact h.push (elem0 (m := c!"strong") (by decide) rfl (.san _))
  | boldItalic x =>
    injection e with e; subst e
    refine h.push (elem0 (m := c!"strong") (x := openTag c!"em" [] ++ sanitize x ++ closeTag c!"em") (by decide) ?_
      (elem0 (by decide) rfl (.san _)))
    simp [openTag, closeTag]
  | blockQuote l x => exact quoteStep_inv r l x h (fun h' => hk _ h' rfl) e
  | taskListItem b x =>
    injection e with e; subst e
    refine Inv.push ?_ (taskOut_bal b x)
    split
    · next hp =>
      refine h.change (off_open (m := c!"ul") (attrs := [(c!"class", c!"contains-task-list")]) (by decide) ?_ [] rfl (by simp)) rfl fun n => ?_
      · intro a ha
        simp at ha
        subst ha
        exact safe_const (by decide)
      · simp at hp
        balance [hp]
    · exact h
  | strikethrough x =>
    injection e with e; subst e
    exact h.push (elem0 (m := c!"strike") (by decide) rfl (.san _))
  | code x =>
    injection e with e; subst e
    exact h.push (.san _)
  | horizontalRule =>
    injection e with e; subst e
    exact h.push (Bal.app Bal.rule (.text (by decide)) : Bal (SafeAttr q) U (c!"<hr />" ++ c!"\n"))
  | newline => injection e with e; subst e; exact h
  | tab => injection e with e; subst e; exact h.push (.text (by decide))
  | doubleTab => injection e with e; subst e; exact h.push (.text (by decide))
  | footnote i x => injection e with e; subst e; exact ⟨h.off⟩
  | lineBreak => injection e with e; subst e; exact h
  | codeBlock x l => injection e with e; subst e; exact h
  | detail s i => injection e with e; subst e; exact h
  | table a b => injection e with e; subst e; exact h

/-! ### The end of a document -/

theorem Off.weaken {A : Str → Str → Prop} {f g : Str → Int} {s : Str} (h : Off A U f s)
    (e : ∀ n, n ≠ c!"ul" → f n = g n) (hu : g c!"ul" ≤ f c!"ul") (hx : U → g c!"ul" = f c!"ul") : Off A U g s :=
  ⟨h.tagged, fun n hn hv hu => by rw [h.count n hn hv hu, e n hu], Int.le_trans hu h.ul, fun u => by rw [hx u, h.ulExact u]⟩

theorem endNl_off {f : Str → Int} {s : Str} (h : Off (SafeAttr q) U f s) : Off (SafeAttr q) U f (endNl s) := by
  unfold endNl
  split
  · exact Off.appendBal safe_noLt h (.text (by decide))
  · exact h

theorem finish_bal {st : PState} (h : Inv q U st) (ht : U → st.inTask = false ∨ st.inUl = false) : Bal (SafeAttr q) U (finish st) := by
  unfold finish
  simp only
  have h1 : Off (SafeAttr q) U (bal { st with inPara := false }) (if st.inPara then st.html ++ c!"</p>\n" else st.html) := by
    split
    · next hp =>
      refine (Off.append safe_noLt h.off (off_close (m := c!"p") (by decide) c!"\n" rfl (by decide))).cast fun n _ _ => ?_
      balance [hp]
    · next hp =>
      refine h.off.cast fun n _ _ => ?_
      balance [hp]
  generalize (if st.inPara then st.html ++ c!"</p>\n" else st.html) = s1 at *
  have h2 : Off (SafeAttr q) U (bal { st with inPara := false, quoteLevel := 0 }) (s1 ++ rep st.quoteLevel c!"</blockquote>\n") := by
    refine (Off.append safe_noLt h1 (off_rep (off_close (m := c!"blockquote") (by decide) c!"\n" rfl (by decide))
      st.quoteLevel)).cast fun n _ _ => ?_
    balance []
  generalize s1 ++ rep st.quoteLevel c!"</blockquote>\n" = s2 at *
  have h3 : Off (SafeAttr q) U (bal { st with inPara := false, quoteLevel := 0, inUl := false, inTask := false })
      (if st.inTask || st.inUl then s2 ++ c!"</ul>" else s2) := by
    split
    · next hp =>
      refine (Off.append safe_noLt h2 (off_close (m := c!"ul") (by decide) [] rfl (by simp))).weaken (fun n hn => ?_) ?_ fun u => ?_
      · simp [bal, atN, hn]
      · revert hp
        simp [bal, atN]
        cases st.inTask <;> cases st.inUl <;> simp [b2i]
      · revert hp
        rcases ht u with h | h <;>
          · simp [bal, atN, h]
            intro hp
            simp [b2i, hp]
    · next hp =>
      simp at hp
      refine h2.cast fun n _ _ => ?_
      balance [hp]
  generalize (if st.inTask || st.inUl then s2 ++ c!"</ul>" else s2) = s3 at *
  have h4 : Off (SafeAttr q) U (bal { inCode := st.inCode }) (if st.inOl then s3 ++ c!"</ol>" else s3) := by
    split
    · next hp =>
      refine (Off.append safe_noLt h3 (off_close (m := c!"ol") (by decide) [] rfl (by simp))).cast fun n _ _ => ?_
      balance [hp]
    · next hp =>
      refine h3.cast fun n _ _ => ?_
      balance [hp]
  generalize (if st.inOl then s3 ++ c!"</ol>" else s3) = s4 at *
  have h5 : Bal (SafeAttr q) U (if st.inCode then endNl (endNl s4) ++ c!"</code></pre>" else endNl s4) := by
    split
    · next hp =>
      have e : c!"</code></pre>" = closeTag c!"code" ++ closeTag c!"pre" := by decide
      rw [e]
      refine (Off.append safe_noLt (endNl_off (endNl_off h4)) (Off.append safe_noLt (off_close (m := c!"code") (by decide) [] (List.append_nil _).symm (by simp))
        (off_close (m := c!"pre") (by decide) [] (List.append_nil _).symm (by simp)))).cast fun n _ _ => ?_
      balance [hp]
    · next hp =>
      refine (endNl_off h4).cast fun n _ _ => ?_
      balance [hp]
  split
  · have := Bal.app h5 (notes_bal st.refs)
    simpa only [List.append_assoc] using this
  · exact h5

/-! ### Documents -/

theorem Inv.init : Inv q U {} := ⟨Bal.nil.cast (by simp [bal, b2i, atN])⟩

/-- Which lists can be open at the same time. -/
def Modes (U N : Prop) (st : PState) : Prop :=
  U → (N → st.inOl = false ∧ (st.inTask = false ∨ st.inUl = false)) ∧ (¬ N → st.inTask = false)

theorem Modes.one {st : PState} (h : Modes U N st) (u : U) : st.inTask = false ∨ st.inUl = false := by
  by_cases n : N
  · exact ((h u).1 n).2
  · exact .inl ((h u).2 n)

/-- Closing lists keeps the modes. -/
theorem Modes.less {st st' : PState} (h : Modes U N st) (h1 : st'.inOl = true → st.inOl = true)
    (h2 : st'.inUl = true → st.inUl = true) (h3 : st'.inTask = true → st.inTask = true) : Modes U N st' := by
  intro u
  have ⟨a, b⟩ := h u
  refine ⟨fun n => ?_, fun n => ?_⟩
  · have ⟨a1, a2⟩ := a n
    revert h1 h2 h3
    rw [a1]
    rcases a2 with a2 | a2 <;> rw [a2] <;> simp <;> intros <;> simp [*]
  · revert h3
    rw [b n]
    simp

theorem Modes.same {st st' : PState} (h : Modes U N st) (e1 : st'.inOl = st.inOl) (e2 : st'.inUl = st.inUl)
    (e3 : st'.inTask = st.inTask) : Modes U N st' :=
  h.less (by rw [e1]; exact id) (by rw [e2]; exact id) (by rw [e3]; exact id)

theorem ensurePara_flags (st : PState) :
    st.ensurePara.inOl = st.inOl ∧ st.ensurePara.inUl = st.inUl ∧ st.ensurePara.inTask = st.inTask := by
  unfold PState.ensurePara
  split <;> exact ⟨rfl, rfl, rfl⟩

theorem step1_modes (t : Token) {st : PState} (h : Modes U N st) : Modes U N (step1 t st) := by
  unfold step1
  refine ite_ind (fun _ => h) fun _ => ?_
  refine ite_ind (fun _ => h) fun _ => ?_
  refine ite_ind (fun _ => h) fun _ => ?_
  refine ite_ind (fun _ => h) fun _ => ?_
  refine ite_ind (fun _ => h.same rfl rfl rfl) fun _ => ?_
  refine ite_ind (fun _ => ?_) fun _ => ?_
  · have ⟨a, b, c⟩ := ensurePara_flags ({ st with inOl := false }.push c!"</ol>\n")
    exact h.less (by rw [a]; simp [PState.push]) (by rw [b]; exact id) (by rw [c]; exact id)
  refine ite_ind (fun _ => ?_) fun _ => ?_
  · have ⟨a, b, c⟩ := ensurePara_flags ({ st with inUl := false }.push c!"</ul>\n")
    exact h.less (by rw [a]; exact id) (by rw [b]; simp [PState.push]) (by rw [c]; exact id)
  refine ite_ind (fun _ => ?_) fun _ => ?_
  · have ⟨a, b, c⟩ := ensurePara_flags ({ st with inTask := false }.push c!"</ul>\n")
    exact h.less (by rw [a]; exact id) (by rw [b]; exact id) (by rw [c]; simp [PState.push])
  refine ite_ind (fun _ => h.same rfl rfl rfl) fun _ => ?_
  refine ite_ind (fun _ => h) fun _ => ?_
  refine ite_ind (fun _ => h.same rfl rfl rfl) fun _ => h

/-- A task closes an open bullet list, if no ordered list is open. -/
theorem step1_task (b : TaskBox) (x : Str) {st : PState} (h1 : st.inOl = false) (h2 : st.inTask = false ∨ st.inUl = false) :
    (step1 (.taskListItem b x) st).inUl = false := by
  have hf := (ensurePara_flags ({ st with inUl := false }.push c!"</ul>\n")).2.1
  have hg := (ensurePara_flags ({ st with inTask := false }.push c!"</ul>\n")).2.1
  simp only [step1, isBlankPlain, isTab, staysInList, staysInTask, opensPara, closesPara, staysInQuote, isCode, h1]
  cases hu : st.inUl <;> cases ht : st.inTask <;> simp_all [PState.push]

/-- An entry of a bullet list closes an open task list, if no other list is open. -/
theorem step1_bullet (ts : List Token) {st : PState} (h1 : st.inOl = false) (h2 : st.inTask = false ∨ st.inUl = false) :
    (step1 (.unorderedListEntry ts) st).inTask = false := by
  have hg := (ensurePara_flags ({ st with inTask := false }.push c!"</ul>\n")).2.2
  simp only [step1, isBlankPlain, isTab, staysInList, staysInTask, opensPara, closesPara, staysInQuote, isCode, h1]
  cases hu : st.inUl <;> cases ht : st.inTask <;> simp_all [PState.push]

theorem quoteStep_flags (r : Rec) (l : Nat) (x : Str) {st st' : PState} (e : quoteStep r l x st = .ok st') :
    st'.inOl = st.inOl ∧ st'.inUl = st.inUl ∧ st'.inTask = st.inTask := by
  have h1 : ∀ st1, st1 = (if st.inPara then { st with inPara := false }.push c!"</p>" else st) →
      st1.inOl = st.inOl ∧ st1.inUl = st.inUl ∧ st1.inTask = st.inTask := by
    rintro _ rfl
    split <;> exact ⟨rfl, rfl, rfl⟩
  unfold quoteStep at e
  simp only at e
  generalize (if st.inPara then { st with inPara := false }.push c!"</p>" else st) = st1 at *
  have h1 := h1 st1 rfl
  split at e
  · injection e with e
    subst e
    exact h1
  · obtain ⟨y, e1, e⟩ := Outcome.bind_ok' e
    injection e with e
    subst e
    exact h1

theorem step_modes (r : Rec) (t : Token) {st st' : PState} (h : Modes U N st) (ok : OkTok q U N r t)
    (e : step2 r t (step1 t st) = .ok st') : Modes U N st' := by
  have hm := step1_modes t h
  obtain ⟨-, ok⟩ := ok
  cases t with
  | orderedListEntry x =>
    injection e with e; subst e
    intro u
    have hn : ¬ N := ok u
    refine ⟨fun n => absurd n hn, fun _ => ?_⟩
    have := (hm u).2 hn
    split <;> exact this
  | unorderedListEntry toks =>
    simp only [step2] at e
    obtain ⟨y, e1, e⟩ := Outcome.bind_ok' e
    injection e with e; subst e
    intro u
    have key : ((N → (step1 (.unorderedListEntry toks) st).inOl = false) ∧ (step1 (.unorderedListEntry toks) st).inTask = false) := by
      by_cases n : N
      · exact ⟨fun _ => ((hm u).1 n).1, step1_bullet toks ((h u).1 n).1 ((h u).1 n).2⟩
      · exact ⟨fun n' => absurd n' n, (hm u).2 n⟩
    generalize step1 (.unorderedListEntry toks) st = st1 at *
    split <;> split <;> exact ⟨fun n => ⟨key.1 n, .inl key.2⟩, fun _ => key.2⟩
  | taskListItem b x =>
    injection e with e; subst e
    intro u
    have n : N := ok u
    have h1 := ((hm u).1 n).1
    have h2 := step1_task b x ((h u).1 n).1 ((h u).1 n).2
    generalize step1 (.taskListItem b x) st = st1 at *
    split <;> exact ⟨fun _ => ⟨h1, .inr h2⟩, fun n' => absurd n n'⟩
  | plaintext x =>
    simp only [step2] at e
    split at e <;> (injection e with e; subst e; exact hm.same rfl rfl rfl)
  | blockQuote l x =>
    have ⟨a, b, c⟩ := quoteStep_flags r l x e
    exact hm.same a b c
  | _ => injection e with e; subst e; exact hm.same rfl rfl rfl

/-- The invariant of the loop. -/
structure Sound (q U N : Prop) (st : PState) : Prop where
  inv : Inv q U st
  modes : Modes U N st

theorem Sound.init : Sound q U N {} := ⟨.init, fun _ => ⟨fun _ => ⟨rfl, .inl rfl⟩, fun _ => rfl⟩⟩

theorem Sound.bal {st : PState} (h : Sound q U N st) : Bal (SafeAttr q) U (finish st) := finish_bal h.inv h.modes.one

theorem parseToks_inv_of (r : Rec) : ∀ (ts : List Token),
    (∀ t ∈ ts, ∀ st st', Sound q U N st → parseTok r t st = .ok st' → Sound q U N st') →
    ∀ st st', Sound q U N st → parseToks r ts st = .ok st' → Sound q U N st'
  | [], _, st, st', h, e => by
    simp only [parseToks] at e
    injection e with e
    exact e ▸ h
  | t :: ts, hq, st, st', h, e => by
    simp only [parseToks] at e
    obtain ⟨st1, e1, e⟩ := Outcome.bind_ok e
    exact parseToks_inv_of r ts (fun u hu => hq u (by simp [hu])) st1 st' (hq t (by simp) st st1 h e1) e

theorem parseDoc_inv_of (r : Rec) (ts : List Token)
    (hq : ∀ t ∈ ts, ∀ st st', Sound q U N st → parseTok r t st = .ok st' → Sound q U N st') (x : Str)
    (e : ((parseToks r ts {}).bind fun s => .ok (finish s)) = .ok x) : Bal (SafeAttr q) U x := by
  obtain ⟨st1, e1, e⟩ := Outcome.bind_ok e
  injection e with e
  subst e
  exact (parseToks_inv_of r ts hq {} st1 .init e1).bal

theorem cellText_bal (w : Outcome Str) (hw : ∀ x, w = .ok x → Bal (SafeAttr q) U x) : ∀ (ts : List Token) (x : Str),
    (∀ t ∈ ts, t.isUsableInTable = true) → cellText w ts = .ok x → Bal (SafeAttr q) U x
  | [], x, _, e => by injection e with e; subst e; exact .nil
  | t :: ts, x, hu, e => by
    have hut := hu t (by simp)
    unfold cellText at e
    obtain ⟨h1, e1, e⟩ := Outcome.bind_ok' e
    obtain ⟨h2, e2, e⟩ := Outcome.bind_ok' e
    injection e with e
    subst e
    refine Bal.app ?_ (cellText_bal w hw ts h2 (fun u h => hu u (by simp [h])) e2)
    split at e1
    · injection e1 with e1; subst e1; exact .san _
    · injection e1 with e1; subst e1; exact elem0 (m := c!"em") (by decide) rfl (.san _)
    · injection e1 with e1; subst e1; exact elem0 (m := c!"strong") (by decide) rfl (.san _)
    · next s =>
      injection e1 with e1; subst e1
      refine elem0 (m := c!"strong") (x := openTag c!"em" [] ++ sanitize s ++ closeTag c!"em") (by decide) ?_
        (elem0 (by decide) rfl (.san _))
      simp [openTag, closeTag]
    · cases hut
    · cases hut
    · cases hut
    · exact hw h1 e1

theorem parseCell_bal_of (r : Rec) (c : Alignment × List Token) (hu : ∀ t ∈ c.2, t.isUsableInTable = true)
    (hq : ∀ t ∈ c.2, ∀ st st', Sound q U N st → parseTok r t st = .ok st' → Sound q U N st') (x : Str)
    (e : parseCell r c = .ok x) : Bal (SafeAttr q) U x := by
  obtain ⟨a, toks⟩ := c
  simp only [parseCell] at e
  obtain ⟨txt, e1, e⟩ := Outcome.bind_ok e
  injection e with e
  subst e
  exact cell_bal (cellText_bal _ (parseDoc_inv_of r toks hq) toks txt hu e1)

theorem parseRow_bal_of (r : Rec) : ∀ (row : List (Alignment × List Token)), (∀ c ∈ row, ∀ t ∈ c.2, t.isUsableInTable = true) →
    (∀ c ∈ row, ∀ t ∈ c.2, ∀ st st', Sound q U N st → parseTok r t st = .ok st' → Sound q U N st') → ∀ x : Str,
    parseRow r row = .ok x → Bal (SafeAttr q) U x
  | [], _, _, x, e => by
    simp only [parseRow] at e
    injection e with e
    subst e
    exact .nil
  | c :: row, hu, hq, x, e => by
    simp only [parseRow] at e
    obtain ⟨h1, e1, e⟩ := Outcome.bind_ok e
    obtain ⟨h2, e2, e⟩ := Outcome.bind_ok e
    injection e with e
    subst e
    exact Bal.app (parseCell_bal_of r c (hu c (by simp)) (hq c (by simp)) h1 e1)
      (parseRow_bal_of r row (fun u hu' => hu u (by simp [hu'])) (fun u hu => hq u (by simp [hu])) h2 e2)

theorem parseRows_bal_of (r : Rec) : ∀ (rows : List (List (Alignment × List Token))),
    (∀ row ∈ rows, ∀ c ∈ row, ∀ t ∈ c.2, t.isUsableInTable = true) →
    (∀ row ∈ rows, ∀ c ∈ row, ∀ t ∈ c.2, ∀ st st', Sound q U N st → parseTok r t st = .ok st' → Sound q U N st') → ∀ x : Str,
    parseRows r rows = .ok x → Bal (SafeAttr q) U x
  | [], _, _, x, e => by
    simp only [parseRows] at e
    injection e with e
    subst e
    exact .nil
  | row :: rows, hu, hq, x, e => by
    simp only [parseRows] at e
    obtain ⟨h1, e1, e⟩ := Outcome.bind_ok e
    obtain ⟨h2, e2, e⟩ := Outcome.bind_ok e
    injection e with e
    subst e
    exact Bal.app (row_bal (parseRow_bal_of r row (hu row (by simp)) (hq row (by simp)) h1 e1))
      (parseRows_bal_of r rows (fun u hu' => hu u (by simp [hu'])) (fun u hu => hq u (by simp [hu])) h2 e2)

theorem parseTok_inv (r : Rec) {t : Token} (h : TokAll (OkTok q U N r) t) :
    ∀ st st', Sound q U N st → parseTok r t st = .ok st' → Sound q U N st' := by
  induction h with
  | mk t h hs ih =>
    intro st st' hst e
    cases t with
    | detail s inner =>
      simp only [parseTok] at e
      obtain ⟨s1, e1, e⟩ := Outcome.bind_ok e
      injection e with e
      subst e
      have h2 := step1_modes (.detail s inner) hst.modes
      refine ⟨Inv.push ?_ (detailOut_bal (parseToks_inv_of r inner ih _ _ .init e1).bal), ?_⟩
      rotate_left
      · split <;> exact h2.same rfl rfl rfl
      have h1 := step1_inv (.detail s inner) hst.inv
      refine ite_ind (fun hp => ?_) fun _ => h1
      refine h1.change (off_close (m := c!"p") (by decide) c!"\n" rfl (by decide)) rfl fun n => ?_
      balance [hp]
    | table heads rows =>
      have h1 := step1_inv (.table heads rows) hst.inv
      have h2 := step1_modes (.table heads rows) hst.modes
      cases rows with
      | nil => simp only [parseTok] at e; cases e
      | cons r0 rs =>
        have hall : ∀ row ∈ r0 :: rs, ∀ c ∈ row, ∀ t ∈ c.2, ∀ st st', Sound q U N st → parseTok r t st = .ok st' → Sound q U N st' := by
          intro row hr c hc t ht
          exact ih t (mem_subToks_table.mpr ⟨row, hr, c, hc, ht⟩)
        simp only [parseTok] at e
        split at e
        · injection e with e
          subst e
          exact ⟨h1, h2⟩
        · obtain ⟨b0, e1, e⟩ := Outcome.bind_ok e
          obtain ⟨bs, e2, e⟩ := Outcome.bind_ok e
          injection e with e
          subst e
          have hb := Bal.app (row_bal (parseRow_bal_of r r0 (h.2 r0 (by simp)) (hall r0 (by simp)) b0 e1))
            (parseRows_bal_of r rs (fun row hr => h.2 row (by simp [hr])) (fun row hr => hall row (by simp [hr])) bs e2)
          have := h1.push (table_bal (headCells_bal heads) hb)
          refine ⟨?_, h2.same rfl rfl rfl⟩
          simpa only [List.append_assoc] using this
    | _ =>
      simp only [parseTok] at e
      exact ⟨step2_inv r _ (step1_inv _ hst.inv) h e, step_modes r _ hst.modes h e⟩

theorem err_safe {x : Str} (h : x ∈ errTexts) : '<' ∉ x ∧ '[' ∉ x ∧ ']' ∉ x := by
  have : ∀ x ∈ errTexts, '<' ∉ x ∧ '[' ∉ x ∧ ']' ∉ x := by decide +kernel
  exact this x h

/-- No task and ordered list in one document. -/
def Apart (d : Str) : Prop := '[' ∉ d ∨ ∀ c ∈ c!"1234567890", ¬ [c, '.', ' '] <:+: d

theorem Apart.infix {s k : Str} (h : Apart s) (e : k <:+: s) : Apart k :=
  h.imp (fun h hm => h (e.subset hm)) fun h c hc hm => h c hc (hm.trans e)

theorem kid_safe {s k : Str} (h : KidOf s k) (hd : SafeSource q s) (hu : U → Apart s) :
    SafeSource q k ∧ (U → Apart k) := by
  cases h with
  | child k h h1 => exact ⟨hd.infix h.1, fun u => (hu u).infix h.1⟩
  | quote x h hg => exact ⟨.of_clean (san_lt x) (san_bracket x), fun _ => .inl (san_open x)⟩
  | err k h => exact ⟨.of_clean (err_safe h).1 (err_safe h).2.2, fun _ => .inl (err_safe h).2.1⟩

theorem rowTokens_usable (r : Rec) : ∀ (l : List Str) (toks : List (List Token)), rowTokens r l = .ok toks →
    ∀ y ∈ toks, ∀ t ∈ y, t.isUsableInTable = true
  | [], toks, h => by injection h with h; subst h; simp
  | x :: xs, toks, h => by
    unfold rowTokens at h
    obtain ⟨ts, h1, h⟩ := Outcome.bind_ok' h
    obtain ⟨rest, h2, h⟩ := Outcome.bind_ok' h
    injection h with h
    subst h
    intro y hy t ht
    rcases List.mem_cons.mp hy with rfl | hy
    · exact (List.mem_filter.mp ht).2
    · exact rowTokens_usable r xs rest h2 y hy t ht

theorem rows_usable {r : Rec} {aligns : List Alignment} {body : List (List Str)} {rows : List (List (Alignment × List Token))}
    (h : List.Forall₂ (fun l row => ∃ toks, rowTokens r l = .ok toks ∧ row = aligns.zip toks) body rows) :
    ∀ row ∈ rows, ∀ c ∈ row, ∀ t ∈ c.2, t.isUsableInTable = true := by
  induction h with
  | nil => simp
  | @cons l row _ _ h1 _ ih =>
    intro row' hr c hc t ht
    rcases List.mem_cons.mp hr with rfl | hr
    · obtain ⟨toks, h2, rfl⟩ := h1
      exact rowTokens_usable r l toks h2 c.2 (List.of_mem_zip (a := c.1) (b := c.2) hc).2 t ht
    · exact ih row' hr c hc t ht

/-- All tokens of a safe document are safe, if rendering parts of it is. -/
theorem okTok_deep {n : Nat} {ig : List Char} {d : Str} {ts : List Token} (hd : SafeSource q d) (hu : U → Apart d)
    (ihn : ∀ m, m ≤ n → ∀ (ig : List Char) (d html : Str), SafeSource q d → (U → Apart d) → (recF m).render ig d = .ok html →
      Bal (SafeAttr q) U html)
    (e1 : lexWith (recF n) ig d = .ok ts) : ∀ t ∈ ts, TokAll (OkTok q U ('[' ∈ d) (recF n)) t := by
  intro t ht
  refine ((deep_shape n ig d ts e1 t ht).and (deep_kids e1 t ht)).mono ?_
  rintro t ⟨⟨m, s', hm, hs', hsh⟩, hk⟩
  have hd' := hd.infix hs'
  refine ⟨fun k h hk' hr => ?_, ?_⟩
  · have ⟨a, b⟩ := kid_safe (hk k hk') hd hu
    exact ihn n (by omega) [] k h a b hr
  · cases hsh with
    | plain x h =>
      rcases h with h | h
      · exact (hd'.infix h).note
      · exact .inr (err_safe h).1
    | headerEmpty l h h1 h6 => exact ⟨h1, h6, .nil, rfl⟩
    | header l arg html h h1 h6 ha hr =>
      refine ⟨h1, h6, headingPost_bal safe_noLt (ihn m (by omega) _ arg html (hd'.infix ha.1) ?_ hr), rfl⟩
      exact fun u => (hu u).infix (ha.1.trans hs')
    | image l title u hv hl hc ht =>
      have ⟨a, b⟩ := hd'.target l hl hc
      have hws := (validateLink_ok hv).2.1
      refine ⟨⟨title, rfl⟩, fun hm => a (content_sublist hv _ hm), fun hq hm => b hq ?_⟩
      have := takeWhile_of_no_ws (x := []) hws
      rw [List.append_nil] at this
      exact this.subset (content_sublist hv _ hm)
    | link l title hover u hv hl hc ht =>
      have ⟨a, b⟩ := hd'.target _ hl hc
      have hws := (validateLink_ok hv).2.1
      refine ⟨display_safe hv ⟨fun hm => a (by simp [hm]), fun hq hm => b hq ?_⟩, .inl ⟨⟨title, rfl⟩, ?_⟩⟩
      · exact (takeWhile_of_no_ws hws).subset hm
      · rintro x rfl hm
        exact a (by simp [hm])
    | autolink l u hv hl hg hs =>
      have hws := (validateLink_ok hv).2.1
      have hcol : ':' ∈ l ∨ '@' ∈ l := by
        obtain ⟨_, _, _, _, h4⟩ := validateLink_ok hv
        rcases h4 with ⟨sc, h5, rfl, _⟩ | ⟨_, rfl, hc, _⟩ | ⟨sc, h5, rfl, hc⟩ | ⟨_, rfl, hc⟩
        · exact .inl (sourceScheme_some h5).1
        · exact .inr (List.count_pos_iff.mp (by omega))
        · exact .inl (sourceScheme_some h5).1
        · cases hs
      have := hd'.auto l hl hg hws hcol
      exact ⟨display_safe hv this, .inr ⟨rfl, rfl, fmtUnsafe_lt hv this.1⟩⟩
    | task b x h hg => exact fun _ => hs'.subset hg
    | ol x h hg =>
      obtain ⟨c, hc, hg⟩ := hg
      exact fun u n => (hu u).elim (fun h => h n) fun h => h c hc (hg.trans hs')
    | table heads aligns body rows hh hb hne hp hrows => exact rows_usable hrows
    | _ => trivial

/-- Rendering a safe document gives tags and text, with balanced tags. -/
theorem render_bal : ∀ (n : Nat) (ig : List Char) (d html : Str), SafeSource q d → (U → Apart d) →
    (recF n).render ig d = .ok html → Bal (SafeAttr q) U html := by
  intro n
  induction n using Nat.strongRecOn with
  | ind n ihn =>
    intro ig d html hd hu e
    cases n with
    | zero => cases e
    | succ n =>
      obtain ⟨ts, e1, e⟩ := Outcome.bind_ok' (show (lexWith (recF n) ig d >>= fun ts => parseDoc (recF n) ts) = .ok html from e)
      exact parseDoc_inv_of (N := '[' ∈ d) (recF n) ts
        (fun t ht => parseTok_inv (recF n) (okTok_deep hd hu (fun m hm => ihn m (by omega)) e1 t ht)) html e

theorem render_bal' {d html : Str} (hd : SafeSource q d) (hu : U → Apart d) (e : render d = .ok html) :
    Bal (SafeAttr q) U html := by
  have : (recF (fuelFor d)).render [] d = .ok html := by
    have := wt_le d
    rw [render_eq d _ (by unfold fuelFor; omega)]
    exact e
  exact render_bal _ _ _ _ hd hu this

end Smd.Gfm
