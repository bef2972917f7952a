import Verif.Release.Cliff
import Verif.Spec.Changelog

/-! Lemmas about the model of the changelog. -/

namespace Smd.Release
open Smd Smd.Rs Smd.Spec

/-! ### Groups -/

theorem addTo_perm (l : Listed) : ∀ gs : List (Str × List Listed), ((addTo l gs).flatMap (·.2)).Perm (gs.flatMap (·.2) ++ [l])
  | [] => by simp [addTo]
  | g :: gs => by
    unfold addTo
    split
    · simp only [List.flatMap_cons, List.append_assoc]
      exact List.Perm.append_left _ List.perm_append_comm
    · split
      · simp only [List.flatMap_cons, List.singleton_append]
        exact (List.perm_append_comm (l₁ := [l]))
      · simp only [List.flatMap_cons, List.append_assoc]
        exact List.Perm.append_left _ (addTo_perm l gs)

theorem foldl_addTo_perm : ∀ (ls : List Listed) (gs : List (Str × List Listed)),
    ((ls.foldl (fun gs l => addTo l gs) gs).flatMap (·.2)).Perm (gs.flatMap (·.2) ++ ls)
  | [], gs => by simp
  | l :: ls, gs => by
    rw [List.foldl_cons]
    refine (foldl_addTo_perm ls (addTo l gs)).trans ?_
    have := (addTo_perm l gs).append_right ls
    simpa using this

theorem groupBy_perm (ls : List Listed) : ((groupBy ls).flatMap (·.2)).Perm ls := by
  simpa [groupBy] using foldl_addTo_perm ls []

/-- The names of groups are in order. -/
def Ordered (gs : List (Str × List Listed)) : Prop := (gs.map (·.1)).Pairwise (· < ·)

theorem mem_addTo_name {l : Listed} : ∀ {gs : List (Str × List Listed)} {n : Str}, n ∈ (addTo l gs).map (·.1) → n = l.group ∨ n ∈ gs.map (·.1)
  | [], n, h => by simpa [addTo] using h
  | g :: gs, n, h => by
    unfold addTo at h
    split at h
    · exact Or.inr (by simpa using h)
    · split at h
      · simpa using h
      · simp only [List.map_cons, List.mem_cons] at h ⊢
        rcases h with h | h
        · exact Or.inr (Or.inl h)
        · rcases mem_addTo_name h with h | h
          · exact Or.inl h
          · exact Or.inr (Or.inr h)

theorem addTo_ordered {l : Listed} : ∀ {gs : List (Str × List Listed)}, Ordered gs → Ordered (addTo l gs)
  | [], _ => by simp [addTo, Ordered]
  | g :: gs, h => by
    have h1 := (List.pairwise_cons.1 (show (g.1 :: gs.map (·.1)).Pairwise (· < ·) from h))
    unfold addTo
    split
    · exact h
    · next hne =>
      split
      · next hlt =>
        refine List.pairwise_cons.2 ⟨?_, h⟩
        intro n hn
        simp only [List.map_cons, List.mem_cons] at hn
        rcases hn with rfl | hn
        · exact hlt
        · exact List.lt_trans hlt (h1.1 n hn)
      · next hnl =>
        refine List.pairwise_cons.2 ⟨?_, addTo_ordered (gs := gs) h1.2⟩
        intro n hn
        rcases mem_addTo_name hn with rfl | hn
        · rcases List.le_iff_lt_or_eq.1 (List.not_lt.1 hnl) with h | h
          · exact h
          · exact absurd h.symm hne
        · exact h1.1 n hn

/-- The commits of a name. -/
def named (n : Str) (gs : List (Str × List Listed)) : List Listed := (gs.filter (fun g => g.1 = n)).flatMap (·.2)

theorem named_none {n : Str} {gs : List (Str × List Listed)} (h : ∀ m ∈ gs.map (·.1), m ≠ n) : named n gs = [] := by
  unfold named
  rw [List.filter_eq_nil_iff.2]
  · rfl
  · intro g hg
    simpa using h g.1 (List.mem_map_of_mem hg)

theorem named_addTo {l : Listed} {n : Str} : ∀ {gs : List (Str × List Listed)}, Ordered gs →
    named n (addTo l gs) = named n gs ++ (if l.group = n then [l] else [])
  | [], _ => by by_cases h : l.group = n <;> simp [addTo, named, h]
  | g :: gs, h => by
    have h1 := (List.pairwise_cons.1 (show (g.1 :: gs.map (·.1)).Pairwise (· < ·) from h))
    have hg : ∀ m ∈ gs.map (·.1), m ≠ g.1 := fun m hm e => List.lt_irrefl g.1 (e ▸ h1.1 m hm)
    unfold addTo
    split
    · next he =>
      by_cases hn : g.1 = n
      · have h0 : named n gs = [] := named_none (fun m hm => hn ▸ hg m hm)
        unfold named at h0
        simp [named, hn, he, h0]
      · simp [named, hn, he]
    · next hne =>
      split
      · next hlt =>
        by_cases hn : l.group = n
        · have h0 : named n (g :: gs) = [] := by
            apply named_none
            intro m hm e
            subst e
            simp only [List.map_cons, List.mem_cons] at hm
            rcases hm with hm | hm
            · exact hne (hn.trans hm)
            · have := h1.1 m hm
              rw [← hn] at this
              exact List.lt_irrefl _ (List.lt_trans hlt this)
          rw [h0]
          unfold named at h0 ⊢
          simp [hn, h0]
        · simp [named, hn]
      · have ih := named_addTo (l := l) (n := n) (gs := gs) h1.2
        unfold named at ih ⊢
        by_cases hn : g.1 = n
        · simp [hn, ih]
        · simp [hn, ih]

theorem foldl_named (n : Str) : ∀ (ls : List Listed) (gs : List (Str × List Listed)), Ordered gs →
    Ordered (ls.foldl (fun gs l => addTo l gs) gs) ∧
    named n (ls.foldl (fun gs l => addTo l gs) gs) = named n gs ++ ls.filter (fun l => l.group = n)
  | [], gs, h => by simp [h]
  | l :: ls, gs, h => by
    rw [List.foldl_cons]
    obtain ⟨h1, h2⟩ := foldl_named n ls (addTo l gs) (addTo_ordered h)
    refine ⟨h1, ?_⟩
    rw [h2, named_addTo h]
    by_cases hn : l.group = n <;> simp [hn]

theorem groupBy_ordered (ls : List Listed) : Ordered (groupBy ls) := (foldl_named [] ls [] (by simp [Ordered])).1

/-- Each group has the commits of its name, in their order. -/
theorem groupBy_mem {ls : List Listed} {g : Str × List Listed} (h : g ∈ groupBy ls) : g.2 = ls.filter (fun l => l.group = g.1) := by
  have h1 := (foldl_named g.1 ls [] (by simp [Ordered])).2
  have h2 : named g.1 (groupBy ls) = g.2 := by
    have ho := groupBy_ordered ls
    clear h1
    revert ho h
    generalize groupBy ls = gs
    induction gs with
    | nil => simp
    | cons x xs ih =>
      intro hm ho
      have h1 := (List.pairwise_cons.1 (show (x.1 :: xs.map (·.1)).Pairwise (· < ·) from ho))
      rcases List.mem_cons.1 hm with rfl | hm
      · have h0 : named g.1 xs = [] := named_none (fun m hm e => List.lt_irrefl g.1 (e ▸ h1.1 m hm))
        unfold named at h0 ⊢
        simp [h0]
      · have hne : x.1 ≠ g.1 := fun e => List.lt_irrefl x.1 (by have := h1.1 g.1 (List.mem_map_of_mem hm); rwa [← e] at this)
        have := ih hm h1.2
        unfold named at this ⊢
        simpa [hne] using this
  rw [← h2]
  simpa [groupBy, named] using h1

theorem addTo_ne {l : Listed} : ∀ {gs : List (Str × List Listed)}, (∀ g ∈ gs, g.2 ≠ []) → ∀ g ∈ addTo l gs, g.2 ≠ []
  | [], _, g, hg => by simp [addTo] at hg; subst hg; simp
  | x :: gs, h, g, hg => by
    unfold addTo at hg
    split at hg
    · rcases List.mem_cons.1 hg with rfl | hg
      · simp
      · exact h g (List.mem_cons_of_mem _ hg)
    · split at hg
      · rcases List.mem_cons.1 hg with rfl | hg
        · simp
        · exact h g hg
      · rcases List.mem_cons.1 hg with rfl | hg
        · exact h _ List.mem_cons_self
        · exact addTo_ne (fun g hg => h g (List.mem_cons_of_mem _ hg)) g hg

/-- No group is empty. -/
theorem groupBy_ne {ls : List Listed} {g : Str × List Listed} (h : g ∈ groupBy ls) : g.2 ≠ [] := by
  have key : ∀ (ls : List Listed) (gs : List (Str × List Listed)), (∀ g ∈ gs, g.2 ≠ []) →
      ∀ g ∈ ls.foldl (fun gs l => addTo l gs) gs, g.2 ≠ [] := by
    intro ls
    induction ls with
    | nil => intro gs h; exact h
    | cons l ls ih => intro gs h; exact ih _ (addTo_ne h)
  exact key ls [] (by simp) g h

/-- A group of every commit. -/
theorem groupBy_name {ls : List Listed} {l : Listed} (h : l ∈ ls) : ∃ g ∈ groupBy ls, g.1 = l.group ∧ l ∈ g.2 := by
  have := (groupBy_perm ls).mem_iff.2 h
  obtain ⟨g, hg, hl⟩ := List.mem_flatMap.1 this
  refine ⟨g, hg, ?_, hl⟩
  rw [groupBy_mem hg] at hl
  exact (of_decide_eq_true (List.mem_filter.1 hl).2).symm

/-! ### Lines of a section -/

theorem entries_append (a b : List Str) : entries (a ++ b) = entries a ++ entries b := List.filter_append ..

theorem printCommit_entry (l : Listed) : startsWith (printCommit l) c!"- " = true := by
  simp [printCommit, startsWith, List.isPrefixOf]

theorem head_entry (n : Str) : startsWith (c!"### " ++ n) c!"- " = false := by simp [startsWith, List.isPrefixOf]

theorem entries_map {α : Type} (f : α → Str) (hf : ∀ a, startsWith (f a) c!"- " = true) (l : List α) : entries (l.map f) = l.map f := by
  apply List.filter_eq_self.2
  intro x hx
  obtain ⟨a, _, rfl⟩ := List.mem_map.1 hx
  exact hf a

theorem sectionBody_entries (cs : List Commit) :
    entries (sectionBody cs) = (groupBy (cs.filterMap (seen true)).reverse).flatMap (fun g => g.2.map printCommit) := by
  unfold sectionBody
  induction groupBy (cs.filterMap (seen true)).reverse with
  | nil => rfl
  | cons g gs ih =>
    rw [List.flatMap_cons, List.flatMap_cons, entries_append, ih]
    congr 1
    have := entries_map printCommit printCommit_entry g.2
    unfold entries at this ⊢
    rw [List.filter_cons_of_neg (by rw [head_entry]; simp), this]

theorem sectionBody_perm (cs : List Commit) : (entries (sectionBody cs)).Perm ((cs.filterMap (seen true)).map printCommit) := by
  rw [sectionBody_entries, ← List.map_flatMap]
  exact ((groupBy_perm _).trans (List.reverse_perm _)).map _

theorem sectionBody_count (cs : List Commit) : (entries (sectionBody cs)).length = (cs.filterMap (seen true)).length := by
  rw [(sectionBody_perm cs).length_eq, List.length_map]

theorem sectionBody_lines {cs : List Commit} {l : Str} (h : l ∈ sectionBody cs) : endsSection l = false ∧ startsWith l c!"## [" = false := by
  obtain ⟨g, _, hg⟩ := List.mem_flatMap.1 h
  rcases List.mem_cons.1 hg with rfl | hg
  · simp [endsSection, startsWith, List.isPrefixOf]
  · obtain ⟨c, _, rfl⟩ := List.mem_map.1 hg
    simp [endsSection, printCommit, startsWith, List.isPrefixOf]

/-! ### Conventional commits -/

theorem kindChar_iff (c : Char) : kindChar c = true ↔ TypeChar c := by
  simp only [kindChar, TypeChar, Bool.and_eq_true, Bool.not_eq_true', bne_iff_ne, List.mem_cons, List.not_mem_nil, or_false, not_or, ne_eq, and_assoc]

theorem takeWhile_stop {p : Char → Bool} : ∀ {a b : Str}, (∀ c ∈ a, p c = true) → (∀ c, b.head? = some c → p c = false) →
    (a ++ b).takeWhile p = a ∧ (a ++ b).dropWhile p = b
  | [], [], _, _ => by simp
  | [], c :: b, _, h => by simp [h c rfl]
  | x :: a, b, ha, h => by
    obtain ⟨h1, h2⟩ := takeWhile_stop (a := a) (b := b) (fun c hc => ha c (List.mem_cons_of_mem _ hc)) h
    simp [ha x List.mem_cons_self, h1, h2]

theorem mem_whileTrue {p : Char → Bool} : ∀ {l : Str} {c : Char}, c ∈ l.takeWhile p → p c = true
  | x :: l, c, h => by
    rw [List.takeWhile_cons] at h
    split at h
    · next hx =>
      rcases List.mem_cons.1 h with rfl | h
      · exact hx
      · exact mem_whileTrue h
    · simp at h

/-- What is behind the type. -/
def convRest (scope : Option Str) (bang : Bool) (w d : Str) : Str :=
  scopeText scope ++ (if bang then c!"!" else []) ++ ':' :: w ++ d

theorem conventional_of {s kind : Str} {scope : Option Str} {bang : Bool} {d : Str} (h : Conventional s kind scope bang d) :
    conventional s = some ⟨kind, scope, bang, d⟩ := by
  obtain ⟨hk, hkc, hs, ⟨d0, t, hd, hd0⟩, w, hw, rfl⟩ := h
  have e : (kind ++ scopeText scope ++ (if bang then c!"!" else []) ++ ':' :: w ++ d) =
      kind ++ convRest scope bang w d := by simp [convRest]
  rw [e]
  have hstop : ∀ c, (convRest scope bang w d).head? = some c → kindChar c = false := by
    intro c hc
    cases scope <;> cases bang <;> simp [convRest, scopeText] at hc <;> subst hc <;> rfl
  obtain ⟨h1, h2⟩ := takeWhile_stop (p := kindChar) (fun c hc => (kindChar_iff c).2 (hkc c hc)) hstop
  have hdw : (w ++ d).dropWhile isWs = d := (takeWhile_stop (p := isWs) hw (by intro c hc; rw [hd] at hc; simp at hc; rw [← hc, hd0])).2
  have hdne : d ≠ [] := by rw [hd]; simp
  have hb : ∀ bg : Bool, bangPart ((if bg then c!"!" else []) ++ ':' :: w ++ d) = (bg, ':' :: w ++ d) := by
    intro bg; cases bg <;> rfl
  have hsc : scopePart (convRest scope bang w d) = some (scope, (if bang then c!"!" else []) ++ ':' :: w ++ d) := by
    cases scope with
    | none => cases bang <;> rfl
    | some x =>
      obtain ⟨hx, hxc⟩ := hs x rfl
      have hp : ∀ c ∈ x, (c != '(' && c != ')') = true := by
        intro c hc
        have := hxc c hc
        simp at this
        simp [this]
      obtain ⟨t1, t2⟩ := takeWhile_stop (p := fun c => c != '(' && c != ')') (b := ')' :: ((if bang then c!"!" else []) ++ ':' :: w ++ d)) hp
        (by intro c hc; simp at hc; subst hc; rfl)
      have e2 : convRest (some x) bang w d = '(' :: (x ++ ')' :: ((if bang then c!"!" else []) ++ ':' :: w ++ d)) := by simp [convRest, scopeText]
      rw [e2]
      unfold scopePart
      simp only [t1, t2, hx, ↓reduceIte]
  unfold conventional
  rw [h1, h2, if_neg hk, hsc]
  simp only [hb]
  simp only [List.cons_append, hdw, hdne, ↓reduceIte]

theorem of_conventional {s : Str} {v : Conv} (h : conventional s = some v) : Conventional s v.kind v.scope v.bang v.description := by
  unfold conventional at h
  split at h
  · simp at h
  next hk =>
    split at h
    · simp at h
    next sc r hsc =>
      split at h
      next d hd =>
        split at h
        · simp at h
        next hdn =>
          obtain rfl := Option.some.inj h
          have hb : r = (if (bangPart r).1 then c!"!" else []) ++ ':' :: d := by
            unfold bangPart at hd ⊢
            split at hd
            · simp at hd; simp [hd]
            · simp at hd; simp [hd]
          have hs : s.dropWhile kindChar = scopeText sc ++ r ∧
              ∀ x, sc = some x → x ≠ [] ∧ ∀ c ∈ x, c ∉ c!"()" := by
            revert hsc
            generalize s.dropWhile kindChar = q
            intro hsc
            unfold scopePart at hsc
            split at hsc
            next r0 =>
              split at hsc
              next r1 hr1 =>
                split at hsc
                · simp at hsc
                next hne =>
                  simp only [Option.some.injEq, Prod.mk.injEq] at hsc
                  obtain ⟨rfl, rfl⟩ := hsc
                  constructor
                  · have := List.takeWhile_append_dropWhile (p := fun c => c != '(' && c != ')') (l := r0)
                    rw [hr1] at this
                    simp [scopeText, this]
                  · intro x hx
                    obtain rfl := Option.some.inj hx
                    refine ⟨hne, ?_⟩
                    intro c hc
                    have := mem_whileTrue hc
                    simpa using this
              · simp at hsc
            · simp only [Option.some.injEq, Prod.mk.injEq] at hsc
              obtain ⟨rfl, rfl⟩ := hsc
              exact ⟨rfl, by simp⟩
          refine ⟨hk, fun c hc => (kindChar_iff c).1 (mem_whileTrue hc), hs.2, ?_, d.takeWhile isWs, fun c hc => mem_whileTrue hc, ?_⟩
          · cases hd1 : d.dropWhile isWs with
            | nil => exact absurd hd1 hdn
            | cons y ys =>
              refine ⟨y, ys, rfl, ?_⟩
              have := List.head?_dropWhile_not isWs d
              rw [hd1] at this
              simpa using this
          · conv => lhs; rw [← List.takeWhile_append_dropWhile (p := kindChar) (l := s), hs.1]
            conv => lhs; rw [hb]
            simp [List.takeWhile_append_dropWhile]
      · simp at h

/-! ### Releases -/

/-- The releases that have a tag. -/
def closedReleases (acc : List Commit) : History → List (Option Str × List Commit)
  | [] => []
  | (c, some t) :: h => if tagPattern t then (some t, acc ++ [c]) :: closedReleases [] h else closedReleases (acc ++ [c]) h
  | (c, none) :: h => closedReleases (acc ++ [c]) h

/-- The commits behind the last tag that is one of a version. -/
def pending (acc : List Commit) : History → List Commit
  | [] => acc
  | (c, some t) :: h => if tagPattern t then pending [] h else pending (acc ++ [c]) h
  | (c, none) :: h => pending (acc ++ [c]) h

theorem releases_append (last : Option Str) : ∀ (acc : List Commit) (h more : History),
    releases last acc (h ++ more) = closedReleases acc h ++ releases last (pending acc h) more
  | acc, [], more => rfl
  | acc, (c, none) :: h, more => by
    simp only [List.cons_append, releases, closedReleases, pending]
    exact releases_append last _ h more
  | acc, (c, some t) :: h, more => by
    simp only [List.cons_append, releases, closedReleases, pending]
    split
    · rw [releases_append last _ h more]; rfl
    · exact releases_append last _ h more

theorem releases_eq (last : Option Str) (acc : List Commit) (h : History) :
    releases last acc h = closedReleases acc h ++ (if pending acc h = [] then [] else [(last, pending acc h)]) := by
  have := releases_append last acc h []
  rw [List.append_nil] at this
  rw [this]
  rfl

theorem closedReleases_version : ∀ {acc : List Commit} {h : History} {r : Option Str × List Commit}, r ∈ closedReleases acc h →
    ∃ t c, r.1 = some t ∧ (c, some t) ∈ h ∧ tagPattern t = true
  | acc, [], r, hr => by simp [closedReleases] at hr
  | acc, (c, none) :: h, r, hr => by
    obtain ⟨t, c', h1, h2, h3⟩ := closedReleases_version (h := h) (by simpa [closedReleases] using hr)
    exact ⟨t, c', h1, List.mem_cons_of_mem _ h2, h3⟩
  | acc, (c, some t) :: h, r, hr => by
    unfold closedReleases at hr
    split at hr
    next ht =>
      rcases List.mem_cons.1 hr with rfl | hr
      · exact ⟨t, c, rfl, List.mem_cons_self, ht⟩
      · obtain ⟨t', c', h1, h2, h3⟩ := closedReleases_version hr
        exact ⟨t', c', h1, List.mem_cons_of_mem _ h2, h3⟩
    · obtain ⟨t', c', h1, h2, h3⟩ := closedReleases_version hr
      exact ⟨t', c', h1, List.mem_cons_of_mem _ h2, h3⟩

theorem releases_version {last : Option Str} {acc : List Commit} {h : History} {r : Option Str × List Commit} (hr : r ∈ releases last acc h) :
    r.1 = last ∨ ∃ t c, r.1 = some t ∧ (c, some t) ∈ h ∧ tagPattern t = true := by
  rw [releases_eq] at hr
  rcases List.mem_append.1 hr with hr | hr
  · exact Or.inr (closedReleases_version hr)
  · split at hr
    · simp at hr
    · simp at hr; exact Or.inl (by rw [hr])

/-- The version of the last release. -/
def lastVersion (previous : Option Str) : List (Option Str × List Commit) → Option Str
  | [] => previous
  | (v, _) :: rs => lastVersion v rs

theorem sections_append (date : Str → Str) : ∀ (previous : Option Str) (a b : List (Option Str × List Commit)),
    sections date previous (a ++ b) = sections date previous a ++ sections date (lastVersion previous a) b
  | _, [], _ => rfl
  | p, (v, cs) :: a, b => by
    simp only [List.cons_append, sections, lastVersion]
    split
    · exact sections_append date v a b
    · rw [sections_append date v a b]; rfl

/-- What a section looks like. -/
def IsSection (e : Option Str × List Str) : Prop :=
  ∃ date p body, e.2 = heading date p e.1 :: body ∧ ∀ l ∈ body, endsSection l = false ∧ startsWith l c!"## [" = false

theorem sections_mem (date : Str → Str) : ∀ (previous : Option Str) (rs : List (Option Str × List Commit)),
    ∀ e ∈ sections date previous rs, IsSection e ∧ ∃ cs, (e.1, cs) ∈ rs ∧ e.2.tail = sectionBody cs
  | _, [], e, he => by simp [sections] at he
  | p, (v, cs) :: rs, e, he => by
    unfold sections at he
    split at he
    · obtain ⟨h1, cs', h2, h3⟩ := sections_mem date v rs e he
      exact ⟨h1, cs', List.mem_cons_of_mem _ h2, h3⟩
    · rcases List.mem_cons.1 he with rfl | he
      · exact ⟨⟨date, p, _, rfl, fun l hl => sectionBody_lines hl⟩, cs, List.mem_cons_self, rfl⟩
      · obtain ⟨h1, cs', h2, h3⟩ := sections_mem date v rs e he
        exact ⟨h1, cs', List.mem_cons_of_mem _ h2, h3⟩

theorem sections_has (date : Str → Str) : ∀ (previous : Option Str) (rs : List (Option Str × List Commit)) (v : Option Str) (cs : List Commit),
    (v, cs) ∈ rs → sectionBody cs ≠ [] → ∃ e ∈ sections date previous rs, e.1 = v ∧ e.2.tail = sectionBody cs
  | _, [], _, _, h, _ => by simp at h
  | p, (w, ds) :: rs, v, cs, h, hb => by
    unfold sections
    rcases List.mem_cons.1 h with h | h
    · obtain ⟨rfl, rfl⟩ := Prod.mk.inj h
      rw [if_neg hb]
      exact ⟨_, List.mem_cons_self, rfl, rfl⟩
    · obtain ⟨e, he, h1, h2⟩ := sections_has date w rs v cs h hb
      split
      · exact ⟨e, he, h1, h2⟩
      · exact ⟨e, List.mem_cons_of_mem _ he, h1, h2⟩

theorem heading_form (date : Str → Str) (p : Option Str) (v : Str) : ∃ r, heading date p (some v) = c!"## [" ++ versionTitle v ++ c!"]" ++ r := by
  cases p with
  | none => exact ⟨c!" - " ++ date v, by simp [heading, dropVs, versionTitle]⟩
  | some q => exact ⟨_, by simp [heading, dropVs, versionTitle]; rfl⟩

theorem bracket_unique : ∀ {a b r : Str}, ']' ∉ a → ']' ∉ b → a ++ c!"]" <+: b ++ c!"]" ++ r → a = b
  | [], [], _, _, _, _ => rfl
  | [], y :: b, r, _, hb, h => by
    obtain ⟨q, hq⟩ := h
    simp only [List.nil_append, List.cons_append, List.cons.injEq] at hq
    exact absurd hq.1 (fun e => hb (e ▸ List.mem_cons_self))
  | x :: a, [], r, ha, _, h => by
    obtain ⟨q, hq⟩ := h
    simp only [List.nil_append, List.cons_append, List.cons.injEq] at hq
    exact absurd hq.1.symm (fun e => ha (e ▸ List.mem_cons_self))
  | x :: a, y :: b, r, ha, hb, h => by
    simp only [List.cons_append, List.cons_prefix_cons] at h
    rw [h.1, bracket_unique (fun m => ha (List.mem_cons_of_mem _ m)) (fun m => hb (List.mem_cons_of_mem _ m)) h.2]

theorem heading_starts (date : Str → Str) (p : Option Str) {v t : Str} (hv : ']' ∉ v) (ht : ']' ∉ t) :
    startsWith (heading date p (some v)) (c!"## [" ++ t ++ c!"]") = decide (versionTitle v = t) := by
  obtain ⟨r, hr⟩ := heading_form date p v
  have hv' : ']' ∉ versionTitle v := fun m => hv ((List.dropWhile_sublist _).subset m)
  rw [hr, Bool.eq_iff_iff, decide_eq_true_iff]
  unfold startsWith
  rw [List.isPrefixOf_iff_prefix]
  constructor
  · intro h
    simp only [List.cons_append, List.nil_append, List.append_assoc, List.cons_prefix_cons, true_and] at h
    exact (bracket_unique ht hv' (by simpa using h)).symm
  · rintro rfl
    exact ⟨r, by simp⟩

theorem heading_ends (date : Str → Str) (p v : Option Str) : endsSection (heading date p v) = true := by
  cases v <;> cases p <;> simp [heading, endsSection, startsWith, List.isPrefixOf]

theorem startsWith_less {l t : Str} (h : startsWith l c!"## [" = false) : startsWith l (c!"## [" ++ t) = false := by
  rw [← Bool.not_eq_true] at h ⊢
  intro h'
  apply h
  unfold startsWith at *
  rw [List.isPrefixOf_iff_prefix] at *
  exact (List.prefix_append _ _).trans h'

theorem sectionLines_skip {t : Str} : ∀ {body rest : List Str}, (∀ l ∈ body, startsWith l c!"## [" = false) →
    sectionLines t (body ++ rest) = sectionLines t rest
  | [], _, _ => rfl
  | l :: body, rest, h => by
    have h1 := startsWith_less (t := t ++ c!"]") (h l List.mem_cons_self)
    rw [List.cons_append]
    rw [sectionLines, List.append_assoc, h1, if_neg (by simp)]
    exact sectionLines_skip (fun l hl => h l (List.mem_cons_of_mem _ hl))

theorem takeWhile_body : ∀ {body : List Str} {x : Str} {r : List Str}, (∀ l ∈ body, endsSection l = false) → endsSection x = true →
    (body ++ x :: r).takeWhile (fun l => !endsSection l) = body
  | [], x, r, _, hx => by simp [hx]
  | l :: body, x, r, h, hx => by
    have := takeWhile_body (r := r) (fun l hl => h l (List.mem_cons_of_mem _ hl)) hx
    simp [h l List.mem_cons_self, this]

theorem sectionLines_find {t foot : Str} (ht : ']' ∉ t) (hf : endsSection foot = true) (hf2 : startsWith foot c!"## [" = false) :
    ∀ S : List (Option Str × List Str), (∀ e ∈ S, IsSection e ∧ ∃ v, e.1 = some v ∧ ']' ∉ v) →
    sectionLines t (S.flatMap (·.2) ++ [foot]) = (match S.find? (fun e => decide (e.1.map versionTitle = some t)) with | some e => e.2.tail | none => [])
  | [], _ => by
    have h1 := startsWith_less (t := t ++ c!"]") hf2
    rw [List.flatMap_nil, List.nil_append, sectionLines, List.append_assoc, h1, if_neg (by simp)]
    rfl
  | e :: S, h => by
    obtain ⟨⟨date, p, body, he, hb⟩, v, hv, hvb⟩ := h e List.mem_cons_self
    have ih := sectionLines_find ht hf hf2 S (fun e he => h e (List.mem_cons_of_mem _ he))
    rw [List.flatMap_cons, he, hv, List.append_assoc, List.cons_append]
    have hx : ∃ x r, S.flatMap (·.2) ++ [foot] = x :: r ∧ endsSection x = true := by
      cases S with
      | nil => exact ⟨foot, [], rfl, hf⟩
      | cons e' S' =>
        obtain ⟨⟨date', p', body', he', _⟩, _⟩ := h e' (by simp)
        exact ⟨heading date' p' e'.1, body' ++ (S'.flatMap (·.2) ++ [foot]), by rw [List.flatMap_cons, he']; simp, heading_ends ..⟩
    obtain ⟨x, r, hxr, hx⟩ := hx
    unfold sectionLines
    rw [heading_starts date p hvb ht, List.find?_cons]
    by_cases hq : versionTitle v = t
    · simp only [hq, hv, decide_true, ↓reduceIte, Option.map_some]
      rw [hxr, takeWhile_body (fun l hl => (hb l hl).1) hx, he]
      rfl
    · simp only [hq, hv, decide_false, Bool.false_eq_true, ↓reduceIte, Option.map_some, Option.some.injEq]
      rw [sectionLines_skip (fun l hl => (hb l hl).2), ih]

/-- The section of a version. -/
theorem changelog_section {date : Str → Str} {rs : List (Option Str × List Commit)} {t : Str} (ht : ']' ∉ t)
    (hrs : ∀ r ∈ rs, ∃ v, r.1 = some v ∧ ']' ∉ v) (cs : List Commit)
    (huniq : ∀ v ds, (some v, ds) ∈ rs → versionTitle v = t → ds = cs)
    (hin : sectionBody cs = [] ∨ ∃ v, (some v, cs) ∈ rs ∧ versionTitle v = t) :
    sectionLines t ([c!"# Changelog"] ++ (sections date none rs).reverse.flatMap (·.2) ++ [c!"<!-- generated by git-cliff -->"]) = sectionBody cs := by
  rw [List.append_assoc, sectionLines_skip (by intro l hl; simp at hl; subst hl; rfl)]
  have hS : ∀ e ∈ (sections date none rs).reverse, IsSection e ∧ ∃ v, e.1 = some v ∧ ']' ∉ v := by
    intro e he
    obtain ⟨h1, ds, h2, _⟩ := sections_mem date none rs e (List.mem_reverse.1 he)
    exact ⟨h1, hrs _ h2⟩
  rw [sectionLines_find ht rfl rfl _ hS]
  cases hfind : (sections date none rs).reverse.find? (fun e => decide (e.1.map versionTitle = some t)) with
  | some e =>
    have he := List.mem_reverse.1 (List.mem_of_find?_eq_some hfind)
    have hp : decide (e.1.map versionTitle = some t) = true := by
      have := List.find?_some hfind
      exact this
    obtain ⟨_, ds, h2, h3⟩ := sections_mem date none rs e he
    obtain ⟨v, hv, _⟩ := hrs _ h2
    simp only at hv
    rw [hv] at h2 hp
    simp only [Option.map_some, Option.some.injEq, decide_eq_true_eq] at hp
    simp only
    rw [h3, huniq v ds h2 hp]
  | none =>
    simp only
    rcases hin with h | ⟨v, hv, ht'⟩
    · exact h.symm
    · by_cases hb : sectionBody cs = []
      · exact hb.symm
      · obtain ⟨e, he, h1, _⟩ := sections_has date none rs (some v) cs hv hb
        have := List.find?_eq_none.1 hfind e (List.mem_reverse.2 he)
        rw [h1] at this
        simp [ht'] at this

theorem tagPattern_iff : ∀ t : Str, tagPattern t = true ↔ VersionTag t
  | [] => by
    simp only [tagPattern, Bool.false_eq_true, false_iff]
    rintro ⟨a, d, b, h, _⟩
    cases a <;> simp at h
  | c :: cs => by
    have ih := tagPattern_iff cs
    unfold tagPattern
    rw [Bool.or_eq_true, ih]
    constructor
    · rintro (h | ⟨a, d, b, h, hd⟩)
      · cases cs with
        | nil => simp at h
        | cons d b =>
          simp only [Bool.and_eq_true, beq_iff_eq] at h
          exact ⟨[], d, b, by rw [h.1]; rfl, h.2⟩
      · exact ⟨c :: a, d, b, by rw [h]; rfl, hd⟩
    · rintro ⟨a, d, b, h, hd⟩
      cases a with
      | nil =>
        simp only [List.nil_append, List.cons.injEq] at h
        obtain ⟨rfl, rfl⟩ := h
        exact Or.inl (by simp [hd])
      | cons x a =>
        simp only [List.cons_append, List.cons.injEq] at h
        exact Or.inr ⟨a, d, b, h.2, hd⟩

theorem seen_true {c : Commit} {l : Listed} (h : seen true c = some l) :
    ∃ v, conventional c.subject = some v ∧
      l = { group := (parserGroup c.subject).getD v.kind, scope := v.scope, breaking := v.bang || c.footer, message := v.description, id := c.id } := by
  unfold seen at h
  split at h
  next v hv => exact ⟨v, hv, (Option.some.inj h).symm⟩
  · simp at h

theorem seen_of {c : Commit} {f : Bool} {kind : Str} {scope : Option Str} {bang : Bool} {d : Str} (h : Conventional c.subject kind scope bang d) :
    seen f c = some { group := (parserGroup c.subject).getD kind, scope := scope, breaking := bang || c.footer, message := d, id := c.id } := by
  unfold seen
  rw [conventional_of h]

theorem seen_none {c : Commit} (h : ∀ kind scope bang d, ¬ Conventional c.subject kind scope bang d) : seen true c = none := by
  unfold seen
  cases hv : conventional c.subject with
  | none => rfl
  | some v => exact absurd (of_conventional hv) (h _ _ _ _)

theorem upperFirst_eq (s : Str) : upperFirst s = capital s := by cases s <;> rfl

theorem printCommit_line (l : Listed) : EntryLine l.scope l.breaking l.message l.id remoteUrl (printCommit l) := by
  unfold EntryLine printCommit
  rw [upperFirst_eq]
  simp only [List.append_assoc, List.cons_append, List.nil_append]
  rfl

theorem printCommit_end (k : Listed) : ∃ b : Str, printCommit k = ((b ++ c!"l") ++ c!"/commit") ++ '/' :: (k.id ++ c!"))") := by
  obtain ⟨q, hq⟩ : ∃ q, printCommit k = q ++ remoteUrl ++ c!"/commit/" ++ k.id ++ c!"))" := ⟨_, printCommit_line k⟩
  exact ⟨q ++ c!"https://github.com/Flokkq/https://github.com/orhun/git-cliff/blob/main/cliff.tom", by rw [hq]; simp [remoteUrl]⟩

theorem prepare_conventional (tag id : Str) : Conventional (prepare tag id).subject c!"chore" (some c!"release") false (c!"prepare for " ++ tag) := by
  refine ⟨by simp, ?_, ?_, ⟨'p', c!"repare for " ++ tag, rfl, by decide⟩, c!" ", by decide, by simp [prepare, scopeText]⟩
  · intro c hc
    exact (kindChar_iff c).1 ((by decide : ∀ c ∈ c!"chore", kindChar c = true) c hc)
  · rintro x hx
    obtain rfl := Option.some.inj hx
    exact ⟨by simp, by decide⟩

/-! ### The commits of the changelog -/

theorem releases_sub {last : Option Str} : ∀ {acc : List Commit} {h : History} {r : Option Str × List Commit} {c : Commit},
    r ∈ releases last acc h → c ∈ r.2 → c ∈ acc ∨ ∃ t, (c, t) ∈ h
  | acc, [], r, c, hr, hc => by
    unfold releases at hr
    split at hr
    · simp at hr
    · simp at hr; subst hr; exact Or.inl hc
  | acc, (d, none) :: h, r, c, hr, hc => by
    rcases releases_sub (h := h) (by simpa [releases] using hr) hc with h1 | ⟨t, h1⟩
    · rcases List.mem_append.1 h1 with h1 | h1
      · exact Or.inl h1
      · simp at h1; subst h1; exact Or.inr ⟨none, List.mem_cons_self⟩
    · exact Or.inr ⟨t, List.mem_cons_of_mem _ h1⟩
  | acc, (d, some t) :: h, r, c, hr, hc => by
    have key : ∀ {q : List Commit}, q = [] ∨ q = acc ++ [d] → r ∈ releases last q h → c ∈ acc ∨ ∃ u, (c, u) ∈ (d, some t) :: h := by
      intro q hq hr
      rcases releases_sub hr hc with h1 | ⟨u, h1⟩
      · rcases hq with rfl | rfl
        · simp at h1
        · rcases List.mem_append.1 h1 with h1 | h1
          · exact Or.inl h1
          · simp at h1; subst h1; exact Or.inr ⟨some t, List.mem_cons_self⟩
      · exact Or.inr ⟨u, List.mem_cons_of_mem _ h1⟩
    unfold releases at hr
    split at hr
    · rcases List.mem_cons.1 hr with rfl | hr
      · rcases List.mem_append.1 hc with h1 | h1
        · exact Or.inl h1
        · simp at h1; subst h1; exact Or.inr ⟨some t, List.mem_cons_self⟩
      · exact key (Or.inl rfl) hr
    · exact key (Or.inr rfl) hr

theorem changelog_entry {date : Str → Str} {last : Option Str} {h : History} {l : Str} (hl : l ∈ entries (changelog date last h)) :
    ∃ x ∈ h, ∃ k, seen true x.1 = some k ∧ l = printCommit k := by
  obtain ⟨hm, hs⟩ := List.mem_filter.1 hl
  unfold changelog at hm
  rcases List.mem_append.1 hm with hm | hm
  · rcases List.mem_append.1 hm with hm | hm
    · simp at hm; subst hm; simp [startsWith, List.isPrefixOf] at hs
    · obtain ⟨e, he, hle⟩ := List.mem_flatMap.1 hm
      obtain ⟨⟨d, p, body, h1, _⟩, cs, h2, h3⟩ := sections_mem date none _ e (List.mem_reverse.1 he)
      rw [h1] at hle h3
      rcases List.mem_cons.1 hle with rfl | hle
      · exfalso
        cases hv : e.1 <;> cases p <;> simp [hv, heading, startsWith, List.isPrefixOf] at hs
      · simp only [List.tail_cons] at h3
        have : l ∈ entries (sectionBody cs) := List.mem_filter.2 ⟨h3 ▸ hle, hs⟩
        obtain ⟨k, hk, rfl⟩ := List.mem_map.1 ((sectionBody_perm cs).mem_iff.1 this)
        obtain ⟨c, hc, hk⟩ := List.mem_filterMap.1 hk
        rcases releases_sub h2 hc with h4 | ⟨t, h4⟩
        · simp at h4
        · exact ⟨(c, t), h4, k, hk, rfl⟩
  · simp at hm; subst hm; simp [startsWith, List.isPrefixOf] at hs

theorem last_slash {x y a b : Str} (ha : '/' ∉ a) (hb : '/' ∉ b) (h : x ++ '/' :: a = y ++ '/' :: b) : x = y := by
  rcases List.append_eq_append_iff.1 h with ⟨q, h1, h2⟩ | ⟨q, h1, h2⟩
  · cases q with
    | nil => simpa using h1.symm
    | cons z q =>
      simp only [List.cons_append, List.cons.injEq] at h2
      exact absurd (h2.2 ▸ List.mem_append_right _ List.mem_cons_self) ha
  · cases q with
    | nil => simpa using h1
    | cons z q =>
      simp only [List.cons_append, List.cons.injEq] at h2
      exact absurd (h2.2 ▸ List.mem_append_right _ List.mem_cons_self) hb

theorem pending_append : ∀ (acc : List Commit) (h more : History), pending acc (h ++ more) = pending (pending acc h) more
  | _, [], _ => rfl
  | acc, (c, none) :: h, more => by simp only [List.cons_append, pending]; exact pending_append _ h more
  | acc, (c, some t) :: h, more => by
    simp only [List.cons_append, pending]
    split <;> exact pending_append _ h more

theorem pending_new : ∀ {acc : List Commit} {new : History}, (∀ x ∈ new, ∀ t, x.2 = some t → ¬ VersionTag t) → pending acc new = acc ++ new.map (·.1)
  | acc, [], _ => by simp [pending]
  | acc, (c, none) :: h, hn => by
    rw [pending, pending_new (fun x hx => hn x (List.mem_cons_of_mem _ hx))]; simp
  | acc, (c, some t) :: h, hn => by
    have : ¬ tagPattern t = true := fun e => hn _ List.mem_cons_self t rfl ((tagPattern_iff t).1 e)
    rw [pending, if_neg this, pending_new (fun x hx => hn x (List.mem_cons_of_mem _ hx))]; simp

theorem pending_release {old new : History} (hold : old = [] ∨ ∃ o c t, old = o ++ [(c, some t)] ∧ VersionTag t)
    (hnew : ∀ x ∈ new, ∀ t, x.2 = some t → ¬ VersionTag t) : pending [] (old ++ new) = new.map (·.1) := by
  rw [pending_append, pending_new hnew]
  rcases hold with rfl | ⟨o, c, t, rfl, ht⟩
  · rfl
  · rw [pending_append]
    simp [pending, (tagPattern_iff t).2 ht]

theorem title_no_bracket {t : Str} (h : ']' ∉ t) : ']' ∉ versionTitle t := fun m => h ((List.dropWhile_sublist _).subset m)

/-- The section of the release that is made. -/
theorem section_current {date : Str → Str} {tag : Str} {h : History} (htag : ']' ∉ tag)
    (hh : ∀ x ∈ h, ∀ t, x.2 = some t → ']' ∉ t ∧ versionTitle t ≠ versionTitle tag) :
    sectionLines (versionTitle tag) (changelog date (some tag) h) = sectionBody (pending [] h) := by
  have hc : ∀ r ∈ closedReleases [] h, ∃ t, r.1 = some t ∧ ']' ∉ t ∧ versionTitle t ≠ versionTitle tag := by
    intro r hr
    obtain ⟨t, c, h1, h2, _⟩ := closedReleases_version hr
    exact ⟨t, h1, hh _ h2 t rfl⟩
  unfold changelog
  rw [releases_eq]
  apply changelog_section (title_no_bracket htag)
  · intro r hr
    rcases List.mem_append.1 hr with hr | hr
    · obtain ⟨t, h1, h2, _⟩ := hc r hr
      exact ⟨t, h1, h2⟩
    · split at hr
      · simp at hr
      · simp at hr; subst hr; exact ⟨tag, rfl, htag⟩
  · intro v ds hm hv
    rcases List.mem_append.1 hm with hr | hr
    · obtain ⟨t, h1, _, h3⟩ := hc _ hr
      obtain rfl := Option.some.inj h1
      exact absurd hv h3
    · split at hr
      · simp at hr
      · simp at hr; exact hr.2
  · by_cases hp : pending [] h = []
    · exact Or.inl (by rw [hp]; rfl)
    · exact Or.inr ⟨tag, by rw [if_neg hp]; simp, rfl⟩

/-! ### Headings of groups -/

theorem parserGroup_mem {s g : Str} (h : parserGroup s = some g) : g ∈ parsers.map (·.2) := by
  unfold parserGroup at h
  obtain ⟨p, hp, rfl⟩ := Option.map_eq_some_iff.1 h
  exact List.mem_map_of_mem (List.mem_of_find?_eq_some hp)

/-- The names of groups: those of the parsers, and types. -/
theorem seen_group {f : Bool} {c : Commit} {l : Listed} (h : seen f c = some l) :
    l.group ∈ parsers.map (·.2) ∨ (l.group ≠ [] ∧ ∀ x ∈ l.group, TypeChar x) := by
  unfold seen at h
  split at h
  next v hv =>
    obtain rfl := Option.some.inj h
    have hc := of_conventional hv
    cases hg : parserGroup c.subject with
    | none => exact Or.inr ⟨hc.1, hc.2.1⟩
    | some g => exact Or.inl (parserGroup_mem hg)
  · split at h
    · simp at h
    · obtain ⟨g, hg, rfl⟩ := Option.map_eq_some_iff.1 h
      exact Or.inl (parserGroup_mem hg)

theorem trim_noWs {s : Str} (h : ∀ x ∈ s, isWs x = false) : trim s = s := by
  have hd : ∀ q : Str, (∀ x ∈ q, isWs x = false) → q.dropWhile isWs = q := by
    intro q hq
    cases q with
    | nil => rfl
    | cons x q => simp [hq x List.mem_cons_self]
  unfold trim trimEndP trimStartP
  rw [hd s h, hd s.reverse (fun x hx => h x (List.mem_reverse.1 hx)), List.reverse_reverse]

theorem toUpper_ge {c d : Char} (h : c.toUpper = d) (hd : 128 ≤ d.toNat) : c = d := by
  unfold Char.toUpper at h
  split at h
  next hc =>
    exfalso
    subst h
    have h1 := UInt32.le_iff_toNat_le.1 hc.2
    have h0 := UInt32.le_iff_toNat_le.1 hc.1
    change 128 ≤ (c.val + _).toNat at hd
    rw [UInt32.toNat_add] at hd
    have e1 : ('A'.val - 'a'.val).toNat = 4294967264 := by decide
    have e2 : 'z'.val.toNat = 122 := by decide
    have e3 : 'a'.val.toNat = 97 := by decide
    rw [e1] at hd
    rw [e2] at h1
    rw [e3] at h0
    omega
  · exact h

/-- A heading that is that of a parser is that of the group of the parser. -/
theorem group_title {g T : Str} (hT : T ∈ parsers.map (·.2)) (h : g ∈ parsers.map (·.2) ∨ (g ≠ [] ∧ ∀ x ∈ g, TypeChar x))
    (he : upperFirst (trim g) = T) : g = T := by
  rcases h with h | ⟨hne, h⟩
  · exact (by decide : ∀ T ∈ parsers.map (·.2), ∀ g ∈ parsers.map (·.2), upperFirst (trim g) = T → g = T) T hT g h he
  · rw [trim_noWs (fun x hx => (h x hx).1)] at he
    cases g with
    | nil => exact absurd rfl hne
    | cons x xs =>
      have h1 : ∀ T ∈ parsers.map (·.2), ∀ d ∈ T.head?, 128 ≤ d.toNat := by decide
      have h2 := h1 T hT x.toUpper (by rw [← he]; rfl)
      have h3 := toUpper_ge rfl h2
      rw [← he]
      change x :: xs = x.toUpper :: xs
      rw [← h3]

theorem title_upper {T : Str} (hT : T ∈ parsers.map (·.2)) : upperFirst (trim T) = T := by
  revert T
  decide

theorem groupEntries_skip {T : Str} : ∀ {a b : List Str}, (∀ l ∈ a, l ≠ c!"### " ++ T) → groupEntries T (a ++ b) = groupEntries T b
  | [], _, _ => rfl
  | l :: a, b, h => by
    rw [List.cons_append, groupEntries, if_neg (h l List.mem_cons_self)]
    exact groupEntries_skip (fun l hl => h l (List.mem_cons_of_mem _ hl))

theorem takeWhile_entries : ∀ {ks : List Listed} {b : List Str}, (∀ l, b.head? = some l → startsWith l c!"- " = false) →
    (ks.map printCommit ++ b).takeWhile (fun l => startsWith l c!"- ") = ks.map printCommit
  | [], [], _ => rfl
  | [], l :: b, h => by simp [h l rfl]
  | k :: ks, b, h => by
    have := takeWhile_entries (ks := ks) h
    simp [printCommit_entry, this]

/-- The entries behind the heading of a parser. -/
theorem groupEntries_body {cs : List Commit} {T : Str} (hT : T ∈ parsers.map (·.2)) :
    groupEntries T (sectionBody cs) = (((cs.filterMap (seen true)).reverse).filter (fun l => l.group = T)).map printCommit := by
  have key : ∀ gs : List (Str × List Listed), Ordered gs → (∀ g ∈ gs, g.1 ∈ parsers.map (·.2) ∨ (g.1 ≠ [] ∧ ∀ x ∈ g.1, TypeChar x)) →
      groupEntries T (gs.flatMap fun g => (c!"### " ++ upperFirst (trim g.1)) :: g.2.map printCommit) = (named T gs).map printCommit := by
    intro gs
    induction gs with
    | nil => intro _ _; rfl
    | cons g gs ih =>
      intro ho hg
      have h1 := (List.pairwise_cons.1 (show (g.1 :: gs.map (·.1)).Pairwise (· < ·) from ho))
      rw [List.flatMap_cons, List.cons_append, groupEntries]
      by_cases hn : g.1 = T
      · have h0 : named T gs = [] := named_none (fun m hm e => List.lt_irrefl g.1 (by have := h1.1 m hm; rwa [e, ← hn] at this))
        rw [if_pos (by rw [hn, title_upper hT]), takeWhile_entries]
        · unfold named at h0 ⊢
          simp [hn, h0]
        · intro l hl
          cases gs with
          | nil => simp at hl
          | cons g' gs' =>
            simp only [List.flatMap_cons, List.cons_append, List.head?_cons, Option.some.injEq] at hl
            rw [← hl]; exact head_entry _
      · have hne : ¬ (c!"### " ++ upperFirst (trim g.1) = c!"### " ++ T) := by
          intro e
          exact hn (group_title hT (hg g List.mem_cons_self) (List.append_cancel_left e))
        rw [if_neg hne, groupEntries_skip, ih h1.2 (fun g hg' => hg g (List.mem_cons_of_mem _ hg'))]
        · unfold named
          simp [hn]
        · intro l hl e
          obtain ⟨k, _, rfl⟩ := List.mem_map.1 hl
          have := printCommit_entry k
          rw [e, head_entry] at this
          exact absurd this (by simp)
  unfold sectionBody
  rw [key _ (groupBy_ordered _)]
  · have := (foldl_named T (cs.filterMap (seen true)).reverse [] (by simp [Ordered])).2
    unfold groupBy
    rw [this]
    simp [named]
  · intro g hg
    obtain ⟨k, hk⟩ := List.exists_mem_of_ne_nil _ (groupBy_ne hg)
    rw [groupBy_mem hg] at hk
    obtain ⟨hk1, hk2⟩ := List.mem_filter.1 hk
    obtain ⟨c, _, hc⟩ := List.mem_filterMap.1 (List.mem_reverse.1 hk1)
    rw [← of_decide_eq_true hk2]
    exact seen_group hc

/-- The first parser whose word is at the start. -/
theorem parserGroup_word {w T x : Str} (h : (w, T) ∈ parsers) : parserGroup (w ++ x) = some T := by
  simp only [parsers, List.mem_cons, Prod.mk.injEq, List.not_mem_nil, or_false] at h
  rcases h with ⟨rfl, rfl⟩ | ⟨rfl, rfl⟩ | ⟨rfl, rfl⟩ | ⟨rfl, rfl⟩ | ⟨rfl, rfl⟩ | ⟨rfl, rfl⟩ | ⟨rfl, rfl⟩ <;>
    simp [parserGroup, parsers, startsWith, List.isPrefixOf]

/-! ### The message of a tag -/

theorem unreleased_eq : ∀ {acc : List Commit} {h : History}, (∀ x ∈ h, ∀ t, x.2 = some t → VersionTag t) → unreleased acc h = pending acc h
  | _, [], _ => rfl
  | acc, (c, none) :: h, hh => by
    rw [unreleased, pending]; exact unreleased_eq (fun x hx => hh x (List.mem_cons_of_mem _ hx))
  | acc, (c, some t) :: h, hh => by
    rw [unreleased, pending, if_pos ((tagPattern_iff t).2 (hh _ List.mem_cons_self t rfl))]
    exact unreleased_eq (fun x hx => hh x (List.mem_cons_of_mem _ hx))

theorem group_not_entry {g : Str} (h : g ∈ parsers.map (·.2) ∨ (g ≠ [] ∧ ∀ x ∈ g, TypeChar x)) : startsWith (upperFirst g) c!"- " = false := by
  rcases h with h | ⟨_, h⟩
  · revert g; decide
  · rw [← Bool.not_eq_true]
    intro hs
    unfold startsWith at hs
    rw [List.isPrefixOf_iff_prefix] at hs
    obtain ⟨r, hr⟩ := hs
    cases g with
    | nil => simp [upperFirst] at hr
    | cons x xs =>
      simp only [upperFirst, List.cons_append, List.nil_append, List.cons.injEq] at hr
      have : ' ' ∈ x :: xs := by rw [← hr.2]; simp
      have := (h ' ' this).1
      exact absurd this (by decide)

theorem messageLine_entry (l : Listed) : startsWith (messageLine l) c!"- " = true := by
  simp [messageLine, startsWith, List.isPrefixOf]

theorem tagMessage_entries (tag id : Str) (h : History) :
    (entries (tagMessage tag id h)).Perm (((unreleased [] (h ++ [(prepare tag id, none)])).filterMap (seen false)).map messageLine) := by
  have key : ∀ gs : List (Str × List Listed), (∀ g ∈ gs, startsWith (upperFirst g.1) c!"- " = false) →
      entries (gs.flatMap fun g => upperFirst g.1 :: g.2.map messageLine) = (gs.flatMap (·.2)).map messageLine := by
    intro gs
    induction gs with
    | nil => intro _; rfl
    | cons g gs ih =>
      intro hg
      rw [List.flatMap_cons, List.flatMap_cons, entries_append, ih (fun x hx => hg x (List.mem_cons_of_mem _ hx)), List.map_append]
      congr 1
      have := entries_map messageLine messageLine_entry g.2
      unfold entries at this ⊢
      rw [List.filter_cons_of_neg (by rw [hg g List.mem_cons_self]; simp), this]
  unfold tagMessage
  rw [← List.singleton_append, entries_append]
  have h0 : entries [c!"Release " ++ tag] = [] := by simp [entries, startsWith, List.isPrefixOf]
  rw [h0, List.nil_append, key]
  · exact (groupBy_perm _).map _
  · intro g hg
    have hne : g.2 ≠ [] ∨ g.2 = [] := by by_cases h : g.2 = [] <;> simp [h]
    have hgr := groupBy_mem hg
    rcases hne with hne | hne
    · obtain ⟨k, hk⟩ := List.exists_mem_of_ne_nil _ hne
      have hk' := hk
      rw [hgr] at hk'
      obtain ⟨hk1, hk2⟩ := List.mem_filter.1 hk'
      obtain ⟨c, _, hc⟩ := List.mem_filterMap.1 hk1
      rw [← of_decide_eq_true hk2]
      exact group_not_entry (seen_group hc)
    · exact absurd hne (groupBy_ne hg)

/-! ### Headings of sections -/

theorem heading_eq (date : Str → Str) (p : Option Str) (v : Str) : heading date p (some v) = versionHeading remoteUrl date (p, v) := by
  cases p <;> simp [heading, versionHeading, dropVs, versionTitle]

theorem heading_is (date : Str → Str) (p v : Option Str) : startsWith (heading date p v) c!"## [" = true := by
  cases v <;> cases p <;> simp [heading, startsWith, List.isPrefixOf]

theorem versionHeadings_section {e : Option Str × List Str} (h : IsSection e) : versionHeadings e.2 = [e.2.headD []] := by
  obtain ⟨date, p, body, he, hb⟩ := h
  rw [he]
  unfold versionHeadings
  rw [List.filter_cons, if_pos (heading_is date p e.1), List.filter_eq_nil_iff.2 (fun l hl => by simp [(hb l hl).2])]
  rfl

theorem versionHeadings_flat : ∀ {S : List (Option Str × List Str)}, (∀ e ∈ S, IsSection e) →
    versionHeadings (S.flatMap (·.2)) = S.map (fun e => e.2.headD [])
  | [], _ => rfl
  | e :: S, h => by
    have h1 := versionHeadings_section (h e List.mem_cons_self)
    have h2 := versionHeadings_flat (S := S) (fun e he => h e (List.mem_cons_of_mem _ he))
    rw [List.flatMap_cons, versionHeadings, List.filter_append]
    unfold versionHeadings at h1 h2
    rw [h1, h2]
    rfl

theorem versionHeadings_changelog (date : Str → Str) (last : Option Str) (h : History) :
    versionHeadings (changelog date last h) = ((sections date none (releases last [] h)).map (fun e => e.2.headD [])).reverse := by
  have h1 : ∀ e ∈ (sections date none (releases last [] h)).reverse, IsSection e := fun e he =>
    (sections_mem date none _ e (List.mem_reverse.1 he)).1
  have h2 := versionHeadings_flat h1
  unfold changelog
  unfold versionHeadings at h2 ⊢
  rw [List.filter_append, List.filter_append, h2, List.map_reverse]
  simp [startsWith, List.isPrefixOf]

theorem sections_heads (date : Str → Str) : ∀ (p : Option Str) (rs : List (Option Str × List Commit)), (∀ r ∈ rs, r.1.isSome = true) →
    ((sections date p rs).map (fun e => e.2.headD [])).Sublist ((ranges p (rs.filterMap (·.1))).map (versionHeading remoteUrl date))
  | _, [], _ => by simp [sections]
  | p, (none, cs) :: rs, h => by simpa using h _ List.mem_cons_self
  | p, (some v, cs) :: rs, h => by
    have ih := sections_heads date (some v) rs (fun r hr => h r (List.mem_cons_of_mem _ hr))
    have e : ((some v, cs) :: rs).filterMap (·.1) = v :: rs.filterMap (·.1) := by simp
    unfold sections
    rw [e, ranges, List.map_cons]
    split
    · exact ih.cons _
    · rw [List.map_cons, List.headD_cons, heading_eq]
      exact ih.cons_cons _

theorem sections_heads_all (date : Str → Str) : ∀ (p : Option Str) (rs : List (Option Str × List Commit)), (∀ r ∈ rs, r.1.isSome = true) →
    (∀ r ∈ rs, sectionBody r.2 ≠ []) →
    (sections date p rs).map (fun e => e.2.headD []) = (ranges p (rs.filterMap (·.1))).map (versionHeading remoteUrl date)
  | _, [], _, _ => by simp [sections, ranges]
  | p, (none, cs) :: rs, h, _ => by simpa using h _ List.mem_cons_self
  | p, (some v, cs) :: rs, h, hb => by
    have ih := sections_heads_all date (some v) rs (fun r hr => h r (List.mem_cons_of_mem _ hr)) (fun r hr => hb r (List.mem_cons_of_mem _ hr))
    have e : ((some v, cs) :: rs).filterMap (·.1) = v :: rs.filterMap (·.1) := by simp
    unfold sections
    rw [if_neg (hb _ List.mem_cons_self), e, ranges, List.map_cons, List.map_cons, List.headD_cons, heading_eq, ih]

theorem closedReleases_tags : ∀ (acc : List Commit) (h : History), (closedReleases acc h).filterMap (·.1) = (h.filterMap (·.2)).filter tagPattern
  | _, [] => rfl
  | acc, (c, none) :: h => by simpa [closedReleases] using closedReleases_tags _ h
  | acc, (c, some t) :: h => by
    by_cases ht : tagPattern t = true
    · simp [closedReleases, ht, closedReleases_tags [] h]
    · simp [closedReleases, ht, closedReleases_tags _ h]

theorem closedReleases_last : ∀ {acc : List Commit} {h : History} {r : Option Str × List Commit}, r ∈ closedReleases acc h →
    ∃ c t, (c, some t) ∈ h ∧ tagPattern t = true ∧ c ∈ r.2
  | acc, [], r, hr => by simp [closedReleases] at hr
  | acc, (c, none) :: h, r, hr => by
    obtain ⟨c', t, h1, h2⟩ := closedReleases_last (h := h) (by simpa [closedReleases] using hr)
    exact ⟨c', t, List.mem_cons_of_mem _ h1, h2⟩
  | acc, (c, some t) :: h, r, hr => by
    unfold closedReleases at hr
    split at hr
    next ht =>
      rcases List.mem_cons.1 hr with rfl | hr
      · exact ⟨c, t, List.mem_cons_self, ht, by simp⟩
      · obtain ⟨c', t', h1, h2⟩ := closedReleases_last hr
        exact ⟨c', t', List.mem_cons_of_mem _ h1, h2⟩
    · obtain ⟨c', t', h1, h2⟩ := closedReleases_last hr
      exact ⟨c', t', List.mem_cons_of_mem _ h1, h2⟩

theorem sectionBody_ne {cs : List Commit} {c : Commit} (hc : c ∈ cs) {kind : Str} {scope : Option Str} {bang : Bool} {d : Str}
    (h : Conventional c.subject kind scope bang d) : sectionBody cs ≠ [] := by
  intro e
  have h1 := sectionBody_count cs
  rw [e] at h1
  have h2 := List.length_pos_of_mem (List.mem_filterMap.2 ⟨c, hc, seen_of (f := true) h⟩)
  rw [← h1] at h2
  simp [entries] at h2

theorem sectionBody_empty {cs : List Commit} (h : ∀ c ∈ cs, ∀ kind scope bang d, ¬ Conventional c.subject kind scope bang d) : sectionBody cs = [] := by
  have : cs.filterMap (seen true) = [] := List.filterMap_eq_nil_iff.2 fun c hc => seen_none (h c hc)
  unfold sectionBody
  rw [this]
  rfl

end Smd.Release
