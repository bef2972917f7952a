import Verif.Spec.Config

/-! Settings. -/

namespace Smd.Core
open Smd.Rs Smd.Spec

/-- All texts that become the given one when `__` is replaced by a dot. -/
def dotInverse : Str → List Str
  | [] => [[]]
  | c :: t => (dotInverse t).map (c :: ·) ++ if c = '.' then (dotInverse t).map (fun k => '_' :: '_' :: k) else []

theorem mem_dotInverse : ∀ (n : Nat) (k : Str), k.length ≤ n → k ∈ dotInverse (replaceStr c!"__" c!"." k)
  | _, [], _ => by simp [replaceStr, replaceGo, dotInverse]
  | n + 1, c :: k, h => by
    by_cases hp : startsWith (c :: k) c!"__" = true
    · obtain ⟨k', e⟩ : ∃ k', c :: k = '_' :: '_' :: k' := by
        unfold startsWith at hp
        obtain ⟨k', e⟩ := List.isPrefixOf_iff_prefix.mp hp
        exact ⟨k', e.symm⟩
      rw [e] at h ⊢
      have ih := mem_dotInverse n k' (by simp at h; omega)
      have er : replaceStr c!"__" c!"." ('_' :: '_' :: k') = '.' :: replaceStr c!"__" c!"." k' := by
        simp [replaceStr, replaceGo]
      rw [er]
      unfold dotInverse
      rw [if_pos rfl]
      exact List.mem_append_right _ (List.mem_map.mpr ⟨k', ih, rfl⟩)
    · have ih := mem_dotInverse n k (by simp at h; omega)
      have er : replaceStr c!"__" c!"." (c :: k) = c :: replaceStr c!"__" c!"." k := by
        unfold replaceStr
        conv => lhs; unfold replaceGo
        unfold startsWith at hp
        simp only [hp]
        rfl
      rw [er]
      unfold dotInverse
      exact List.mem_append_left _ (List.mem_map.mpr ⟨k, ih, rfl⟩)

theorem envKey_names {name : Str} (hn : name = c!"on_parse_error" ∨ name = c!"keep_temp_files") (v : Str) :
    envKey v = some (c!"parse." ++ name) ↔ Names v name = true := by
  unfold envKey Names
  simp only [decide_eq_true_eq]
  generalize v.map Char.toLower = k
  constructor
  · intro h
    split at h
    · cases h
    · next k' hk =>
      have hk' : k = c!"smd__" ++ k' := by
        unfold stripPrefix at hk
        split at hk
        · next hp =>
          obtain ⟨t, ht⟩ := List.isPrefixOf_iff_prefix.mp hp
          subst ht
          cases hk
          rfl
        · cases hk
      have hm := mem_dotInverse k'.length k' (Nat.le_refl _)
      rw [Option.some.inj h] at hm
      rcases hn with rfl | rfl
      · have e : dotInverse (c!"parse." ++ c!"on_parse_error") = [c!"parse.on_parse_error", c!"parse__on_parse_error"] := by decide +kernel
        rw [e] at hm
        rcases List.mem_cons.mp hm with rfl | hm
        · exact .inr hk'
        · rw [List.mem_singleton.mp hm] at hk'
          exact .inl hk'
      · have e : dotInverse (c!"parse." ++ c!"keep_temp_files") = [c!"parse.keep_temp_files", c!"parse__keep_temp_files"] := by decide +kernel
        rw [e] at hm
        rcases List.mem_cons.mp hm with rfl | hm
        · exact .inr hk'
        · rw [List.mem_singleton.mp hm] at hk'
          exact .inl hk'
  · rcases hn with rfl | rfl <;> (rintro (rfl | rfl) <;> decide +kernel)

theorem lookupLast_eq (k : Str) (l : List (Str × Val)) : lookupLast k l = ((l.filter fun e => e.1 = k).getLast?).map (·.2) := by
  unfold lookupLast
  rw [← List.head?_filter, List.filter_reverse, List.head?_reverse]

theorem filter_env {key : Str} {q : Str → Bool} (h : ∀ v, envKey v = some key ↔ q v = true) : ∀ env : List (Str × Str),
    (env.filterMap fun v => (envKey v.1).map fun k => (k, Val.str v.2)).filter (fun e => e.1 = key) =
      (env.filter fun v => q v.1).map fun v => (key, .str v.2)
  | [] => rfl
  | v :: env => by
    have ih := filter_env h env
    cases hk : envKey v.1 with
    | none =>
      have hq : q v.1 = false := by
        cases e : q v.1 with
        | false => rfl
        | true => have := (h v.1).mpr e; rw [hk] at this; cases this
      rw [List.filterMap_cons_none (by rw [hk]; rfl), List.filter_cons_of_neg (by rw [hq]; decide), ih]
    | some k =>
      rw [List.filterMap_cons_some (by rw [hk]; rfl)]
      by_cases e : k = key
      · subst e
        rw [List.filter_cons_of_pos (by simp), List.filter_cons_of_pos (p := fun v : Str × Str => q v.1) ((h v.1).mp hk), List.map_cons, ih]
      · have hq : ¬ q v.1 = true := fun e' => e (by have := (h v.1).mpr e'; rw [hk] at this; exact Option.some.inj this)
        rw [List.filter_cons_of_neg (by simpa using e), List.filter_cons_of_neg (p := fun v : Str × Str => q v.1) hq, ih]

theorem lookup_setting {name : Str} (hn : name = c!"on_parse_error" ∨ name = c!"keep_temp_files") (file : List (Str × Val)) (env : List (Str × Str)) :
    lookupLast (c!"parse." ++ name) (sources file env) = setting file env name := by
  rw [lookupLast_eq]
  unfold sources setting
  rw [List.filter_append, filter_env (q := fun v => Names v name) (envKey_names hn), List.getLast?_append, List.getLast?_map]
  cases (env.filter fun v => Names v.1 name).getLast? with
  | none => simp
  | some v => simp

theorem action_name (s : Str) (a : ParseErrorAction) :
    (if s = c!"abort" then some .abort else if s = c!"skip" then some .skip else if s = c!"serialize" then some .serialize else none) = some a ↔
      (a, s) ∈ [(ParseErrorAction.abort, c!"abort"), (.skip, c!"skip"), (.serialize, c!"serialize")] := by
  split
  · next h => subst h; cases a <;> simp
  · split
    · next h => subst h; cases a <;> simp
    · split
      · next h => subst h; cases a <;> simp
      · next h1 h2 h3 => cases a <;> simp [h1, h2, h3]

theorem asAction_iff (os : Os) (v : Val) (a : ParseErrorAction) : asAction os v = some a ↔ MeansAction os.anyCase v a := by
  cases v with
  | str s =>
    unfold asAction MeansAction
    simp only [Val.str.injEq]
    rw [action_name]
    constructor
    · intro h
      refine ⟨s, _, rfl, h, ?_⟩
      cases os.anyCase <;> simp
    · rintro ⟨_, name, rfl, h, rfl | ⟨hc, rfl⟩⟩
      · have : (if os.anyCase = true then s.map Char.toLower else s) = s := by
          split
          · simp only [List.mem_cons, List.not_mem_nil, or_false, Prod.mk.injEq] at h
            rcases h with ⟨_, rfl⟩ | ⟨_, rfl⟩ | ⟨_, rfl⟩ <;> decide
          · rfl
        rw [this]
        exact h
      · rw [if_pos hc]
        exact h
  | bool b => simp [asAction, MeansAction]
  | int n => simp [asAction, MeansAction]

theorem asBool_iff (v : Val) (b : Bool) : asBool v = some b ↔ MeansBool v b := by
  cases v with
  | str s =>
    unfold asBool MeansBool
    simp only [Val.str.injEq, exists_eq_left', reduceCtorEq, false_and, exists_false, false_or]
    generalize s.map Char.toLower = l
    by_cases h1 : l ∈ [c!"1", c!"true", c!"on", c!"yes"]
    · rw [if_pos h1]
      have h2 : l ∉ [c!"0", c!"false", c!"off", c!"no"] := by
        intro h2
        simp only [List.mem_cons, List.not_mem_nil, or_false] at h1 h2
        rcases h1 with rfl | rfl | rfl | rfl <;> revert h2 <;> decide
      cases b
      · simpa using h2
      · simpa using h1
    · rw [if_neg h1]
      by_cases h2 : l ∈ [c!"0", c!"false", c!"off", c!"no"]
      · rw [if_pos h2]
        cases b
        · simpa using h2
        · simpa using h1
      · rw [if_neg h2]
        cases b
        · simpa using h2
        · simpa using h1
  | bool c => cases b <;> cases c <;> simp [asBool, MeansBool]
  | int n => cases b <;> simp [asBool, MeansBool]

theorem parseFromStr_iff (os : Os) (x : Ctx) (s : Str) (c : Config) : parseFromStr os x s = .ok c ↔
    ∃ file, os.toml s = some file ∧ (∃ v, setting file x.env c!"on_parse_error" = some v ∧ MeansAction os.anyCase v c.onParseError) ∧
      ∃ v, setting file x.env c!"keep_temp_files" = some v ∧ MeansBool v c.keepTempFiles := by
  unfold parseFromStr
  cases hf : os.toml s with
  | none => simp
  | some file =>
    have e1 := lookup_setting (.inl rfl : _ ∨ c!"on_parse_error" = c!"keep_temp_files") file x.env
    have e2 := lookup_setting (.inr rfl : c!"keep_temp_files" = c!"on_parse_error" ∨ _) file x.env
    simp only [Option.some.injEq, exists_eq_left']
    rw [show c!"parse.on_parse_error" = c!"parse." ++ c!"on_parse_error" from rfl, e1,
      show c!"parse.keep_temp_files" = c!"parse." ++ c!"keep_temp_files" from rfl, e2]
    simp only [← asAction_iff, ← asBool_iff]
    obtain ⟨ca, cb⟩ := c
    cases h1 : setting file x.env c!"on_parse_error" with
    | none => simp
    | some va =>
      cases h2 : setting file x.env c!"keep_temp_files" with
      | none =>
        simp only [Option.bind_some, Option.bind_none]
        split <;> simp_all
      | some vb =>
        simp only [Option.bind_some, Option.some.injEq, exists_eq_left']
        split
        · next a b ha hb => rw [ha, hb]; simp
        · next h => constructor
                    · nofun
                    · rintro ⟨ha, hb⟩
                      exact absurd hb (h _ _ ha)

/-- Without variables the file decides. -/
theorem setting_file {file : List (Str × Val)} {env : List (Str × Str)} {name : Str} (h : ∀ v ∈ env, Spec.Names v.1 name = false) :
    Spec.setting file env name = ((file.filter fun e => e.1 = c!"parse." ++ name).getLast?).map (·.2) := by
  unfold Spec.setting
  rw [show env.filter (fun v => Spec.Names v.1 name) = [] from List.filter_eq_nil_iff.mpr fun v hv => by simp [h v hv]]
  rfl

end Smd.Core
