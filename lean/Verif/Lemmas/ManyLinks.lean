import Verif.Props.Growth
import Verif.Lemmas.Effort

/-!
A cell with many links is rendered once for each of them, and each rendering is logged.
-/

namespace Smd.Gfm
open Smd.Rs Smd.Spec

theorem Said.cost_bind_ok {x : Said α} {a : α} (f : α → Said β) (h : x.out = .ok a) : (x.bind f).cost = x.cost + (f a).cost := by
  unfold Said.bind Said.cost
  rw [h]
  simp

theorem Said.cost_bind_ge (x : Said α) (f : α → Said β) : x.cost ≤ (x.bind f).cost := by
  unfold Said.bind Said.cost
  cases x.out <;> simp

theorem Said.out_bind_ok {x : Said α} {a : α} (f : α → Said β) (h : x.out = .ok a) : (x.bind f).out = (f a).out := by
  unfold Said.bind
  rw [h]

theorem parseTokL_link (d : Dbg) (r : RecL) (u : ValidURL) (st : PState) :
    (parseTokL d r (.link u none none) st).cost = 1 ∧ ∃ st', (parseTokL d r (.link u none none) st).out = .ok st' := by
  rw [parseTokL_small d r _ _ (by trivial)]
  exact ⟨rfl, _, rfl⟩

theorem parseToksL_links (d : Dbg) (r : RecL) (u : ValidURL) : ∀ (k : Nat) (st : PState),
    (parseToksL d r (List.replicate k (.link u none none)) st).cost = k ∧
    ∃ st', (parseToksL d r (List.replicate k (.link u none none)) st).out = .ok st'
  | 0, st => by rw [List.replicate_zero, parseToksL]; exact ⟨rfl, _, rfl⟩
  | k + 1, st => by
    obtain ⟨h1, st1, h2⟩ := parseTokL_link d r u st
    obtain ⟨h3, st2, h4⟩ := parseToksL_links d r u k st1
    rw [List.replicate_succ, parseToksL, Said.cost_bind_ok _ h2, Said.out_bind_ok _ h2, h1, h3]
    exact ⟨Nat.add_comm _ _, st2, h4⟩

theorem cellTextL_links {w : Said Str} {x : Str} (hw : w.out = .ok x) (u : ValidURL) : ∀ k,
    (cellTextL w (List.replicate k (.link u none none))).cost = k * w.cost ∧
    ∃ y, (cellTextL w (List.replicate k (.link u none none))).out = .ok y
  | 0 => ⟨(Nat.zero_mul _).symm, _, rfl⟩
  | k + 1 => by
    obtain ⟨h1, y, h2⟩ := cellTextL_links hw u k
    have e : cellTextL w (List.replicate (k + 1) (.link u none none)) =
      w.bind fun h => (cellTextL w (List.replicate k (.link u none none))).bind fun rest => .of (.ok (h ++ rest)) := rfl
    rw [e, Said.cost_bind_ok _ hw, Said.cost_bind_ok _ h2, Said.out_bind_ok _ hw, Said.out_bind_ok _ h2, h1]
    refine ⟨?_, _, rfl⟩
    rw [Nat.succ_mul, Nat.add_comm]
    rfl

theorem parseCellL_links (d : Dbg) (r : RecL) (a : Alignment) (u : ValidURL) (k : Nat) :
    k * k ≤ (parseCellL d r (a, List.replicate k (.link u none none))).cost := by
  rw [parseCellL]
  obtain ⟨h1, st, h2⟩ := parseToksL_links d r u k {}
  generalize hw : Said.say (parseStart (List.replicate k (Token.link u none none)).length)
    ((parseToksL d r (List.replicate k (Token.link u none none)) {}).bind fun s =>
      .say (dbgLib c!"Parsing completed") (.of (.ok (finish s)))) = w
  have hout : w.out = .ok (finish st) := by
    subst hw
    exact Said.out_bind_ok _ h2
  have hcost : k ≤ w.cost := by
    subst hw
    have := Said.cost_bind_ge (parseToksL d r (List.replicate k (Token.link u none none)) {})
      (fun s => .say (dbgLib c!"Parsing completed") (.of (.ok (finish s))))
    rw [h1] at this
    exact Nat.le_succ_of_le this
  refine Nat.le_trans ?_ (Said.cost_bind_ge _ _)
  rw [(cellTextL_links hout u k).1]
  exact Nat.mul_le_mul_left k hcost

theorem lex_links (r : Rec) {u : ValidURL} (hu : validateLink c!"ab:c" = .ok u) (hs : u.scheme.isSome = true) : ∀ k,
    LexTo r [] (inlineSrc (List.replicate k (.autolink c!"ab:c"))) (List.replicate k (.link u none none))
  | 0 => LexTo.nil
  | k + 1 => LexTo.autolink target_abc hu hs (lex_links r hu hs k)

theorem links_cost (d : Dbg) (k : Nat) : (k + 1) * (k + 1) ≤ (renderL d (linksTable (k + 1)).src).cost := by
  obtain ⟨u, hu, _, _, hs, _⟩ := plainTarget_ok target_abc
  have hg := linksTable_good k
  generalize hf : 9 * (linksTable (k + 1)).src.length = n
  unfold renderL
  rw [show fuelFor (linksTable (k + 1)).src = n + 2 by unfold fuelFor; omega]
  have hlex : (recF (n + 1)).lex (inlineSrc (List.replicate (k + 1) (.autolink c!"ab:c"))) = .ok (List.replicate (k + 1) (.link u none none)) :=
    (lex_links (recF n) hu hs (k + 1)).lexWith
  have hcell : Cell.Good ⟨0, List.replicate (k + 1) (.autolink c!"ab:c"), 0⟩ :=
    hg.cells [⟨0, List.replicate (k + 1) (.autolink c!"ab:c"), 0⟩] (by simp [linksTable]) _ (by simp)
  have hrows : tableRows (recF (n + 1)) ((linksTable (k + 1)).delims.map cellAlign)
      ((linksTable (k + 1)).rows.map fun r => (r.map Cell.src).flatMap (· ++ c!"|")) =
      .ok [[(cellAlign c!"-", List.replicate (k + 1) (.link u none none))]] := by
    have hcells : cells (([⟨0, List.replicate (k + 1) (.autolink c!"ab:c"), 0⟩].map Cell.src).flatMap (· ++ c!"|")) =
        [⟨0, List.replicate (k + 1) (.autolink c!"ab:c"), 0⟩].map Cell.src := by
      refine cells_row fun x hx => ?_
      obtain ⟨c, hc, rfl⟩ := List.mem_map.mp hx
      rw [List.mem_singleton] at hc
      subst hc
      exact ⟨hcell.nonempty, hcell.chars.1⟩
    simp only [linksTable, List.map_cons, List.map_nil, tableRows, rowTokens] at hcells ⊢
    rw [hcells]
    simp only [List.map_cons, List.map_nil, rowTokens, cell_trim hcell, hlex]
    have hf : (List.replicate (k + 1) (Token.link u none none)).filter Token.isUsableInTable = List.replicate (k + 1) (.link u none none) :=
      List.filter_eq_self.mpr fun t ht => by rw [List.eq_of_mem_replicate ht]; rfl
    show Outcome.ok [[(_, List.filter _ _)]] = _
    rw [hf]
  have hone := table_lex hg hrows 0 [] (.inr rfl) (.inr nofun)
  have htoks := LexTo.lexWith (LexTo.cons hone LexTo.nil)
  rw [show times 0 '\n' ++ ([] : Str) = [] from rfl, List.append_nil] at htoks
  have e : ((recL d (n + 2)).render [] (linksTable (k + 1)).src) = Said.bind (⟨renderStart [] (linksTable (k + 1)).src, .ok ()⟩ : Said PUnit) fun _ =>
    Said.bind (lexWithL d (recL d (n + 1)) [] (linksTable (k + 1)).src) fun ts => parseDocL d (recL d (n + 1)) ts := rfl
  rw [e, Said.cost_bind_ok _ rfl, Said.cost_bind_ok _ (a := _) (by rw [erase_lexWithL, erase_recL]; exact htoks)]
  refine Nat.le_trans ?_ (Nat.le_trans (Nat.le_add_left _ _) (Nat.le_add_left _ _))
  refine Nat.le_trans ?_ (Nat.le_succ_of_le (Said.cost_bind_ge _ _))
  rw [parseToksL]
  refine Nat.le_trans ?_ (Said.cost_bind_ge _ _)
  simp only [linksTable, parseTokL, List.map_cons, List.map_nil, List.zip_cons_cons, List.zip_nil_left, List.length_cons, List.length_nil]
  refine Nat.le_succ_of_le ?_
  rw [if_neg (by simp)]
  refine Nat.le_trans ?_ (Said.cost_bind_ge _ _)
  rw [parseRowL]
  exact Nat.le_trans (parseCellL_links d _ _ u (k + 1)) (Said.cost_bind_ge _ _)

end Smd.Gfm
