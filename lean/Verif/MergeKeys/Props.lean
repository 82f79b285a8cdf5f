import Verif.MergeKeys.Model
import Mathlib.Data.List.Forall2
/-! # Key columns of merges (C299, C300) -/
namespace Verif.MergeKeys
open Spec

theorem itemSide_means {i : Item} {l r : String} (h : Means i l r) : itemSide true i = .ok l ∧ itemSide false i = .ok r := by
  cases h <;> exact ⟨rfl, rfl⟩

theorem itemSide_both {i : Item} {l r : String} (h1 : itemSide true i = .ok l) (h2 : itemSide false i = .ok r) : Means i l r := by
  match i with
  | .name s =>
    obtain rfl : s = l := by simpa [itemSide] using h1
    obtain rfl : s = r := by simpa [itemSide] using h2
    exact .name _
  | .other => simp [itemSide] at h1
  | .tup [] => simp [itemSide, tupSide] at h1
  | .tup [a] =>
    cases a with
    | name s =>
      obtain rfl : s = l := by simpa [itemSide, tupSide] using h1
      obtain rfl : s = r := by simpa [itemSide, tupSide] using h2
      exact .one _
    | none => simp [itemSide, tupSide] at h1
    | names _ => simp [itemSide, tupSide] at h1
    | other => simp [itemSide, tupSide] at h1
  | .tup [a, b] =>
    cases a with
    | name s =>
      obtain rfl : s = l := by simpa [itemSide, tupSide] using h1
      cases b with
      | name t =>
        obtain rfl : t = r := by simpa [itemSide, tupSide] using h2
        exact .two _ _
      | none => simp [itemSide, tupSide] at h2
      | names _ => simp [itemSide, tupSide] at h2
      | other => simp [itemSide, tupSide] at h2
    | none => simp [itemSide, tupSide] at h1
    | names _ => simp [itemSide, tupSide] at h1
    | other => simp [itemSide, tupSide] at h1
  | .tup (a :: b :: c :: _) => simp [itemSide, tupSide] at h1

theorem listSide_ok (left : Bool) (is : List Item) (ns : List String) :
    listSide left is = .ok ns ↔ List.Forall₂ (fun i n => itemSide left i = .ok n) is ns := by
  induction is generalizing ns with
  | nil => simp [listSide, eq_comm]
  | cons i is ih =>
    unfold listSide
    cases hi : itemSide left i with
    | error e =>
      simp only [reduceCtorEq, false_iff]
      intro h
      cases h with
      | cons h1 _ => rw [hi] at h1; cases h1
    | ok s =>
      dsimp only
      cases hl : listSide left is with
      | error e =>
        simp only [reduceCtorEq, false_iff]
        intro h
        cases h with
        | cons _ h2 => rw [(ih _).2 h2] at hl; cases hl
      | ok ss =>
        simp only [Except.ok.injEq]
        constructor
        · rintro rfl
          exact .cons hi ((ih ss).1 hl)
        · intro h
          cases h with
          | cons h1 h2 =>
            rw [hi] at h1
            rw [(ih _).2 h2] at hl
            cases h1; cases hl; rfl

/-- C299: for a list the names of both sides are found exactly if the list is not empty and every entry means a pair of names;
the lists are those names in the order of the list -/
theorem list_exact (is : List Item) (ls rs : List String) :
    (extract (.list is) none true false = .ok ls ∧ extract (.list is) none false false = .ok rs) ↔
      is ≠ [] ∧ ∃ ps : List (String × String), List.Forall₂ (fun i p => Means i p.1 p.2) is ps ∧
        ls = ps.map Prod.fst ∧ rs = ps.map Prod.snd := by
  have hx : ∀ (left : Bool) (ns : List String), extract (.list is) none left false = .ok ns ↔
      is ≠ [] ∧ List.Forall₂ (fun i n => itemSide left i = .ok n) is ns := by
    intro left ns
    unfold extract
    dsimp only
    rw [← listSide_ok]
    cases hl : listSide left is with
    | error e => simp
    | ok ms =>
      dsimp only
      have hlen := ((listSide_ok left is ms).1 hl).length_eq
      unfold nonEmpty
      cases ms with
      | nil =>
        have : is = [] := List.length_eq_zero_iff.1 (by simpa using hlen)
        simp [this]
      | cons m ms =>
        have : is ≠ [] := by rintro rfl; simp at hlen
        simp [this]
  rw [hx, hx]
  constructor
  · rintro ⟨⟨hne, hl⟩, -, hr⟩
    refine ⟨hne, ?_⟩
    clear hne hx
    induction hl generalizing rs with
    | nil => cases hr; exact ⟨[], .nil, rfl, rfl⟩
    | cons h1 _ ih =>
      cases hr with
      | cons g1 g2 =>
        obtain ⟨ps, hp, e1, e2⟩ := ih _ g2
        exact ⟨(_, _) :: ps, .cons (itemSide_both h1 g1) hp, by simp [e1], by simp [e2]⟩
  · rintro ⟨hne, ps, hp, rfl, rfl⟩
    refine ⟨⟨hne, ?_⟩, hne, ?_⟩
    · rw [List.forall₂_map_right_iff]
      exact hp.imp fun _ _ h => (itemSide_means h).1
    · rw [List.forall₂_map_right_iff]
      exact hp.imp fun _ _ h => (itemSide_means h).2

example : List.Forall₂ (fun i (p : String × String) => Means i p.1 p.2) [.name "a", .tup [.name "b", .name "c"]]
    [("a", "a"), ("b", "c")] := .cons (.name _) (.cons (.two _ _) .nil)

/-- C299: a single name and a tuple mean the same as a list with that one entry -/
theorem single_exact (left : Bool) :
    (∀ s, extract (.name s) none left false = extract (.list [.name s]) none left false) ∧
    (∀ as : List Atom, (∀ a ∈ as, ∃ s, a = .name s) →
      ((∃ ns, extract (.tup as) none left false = .ok ns) ↔ as.length = 1 ∨ as.length = 2) ∧
      ∀ ns, extract (.tup as) none left false = .ok ns ↔ extract (.list [.tup as]) none left false = .ok ns) := by
  refine ⟨fun s => rfl, fun as h => ?_⟩
  match as, h with
  | [], _ => simp [extract, tupSide, listSide, itemSide]
  | [a], h =>
    obtain ⟨s, rfl⟩ := h a (by simp)
    simp [extract, tupSide, listSide, itemSide, nonEmpty]
  | [a, b], h =>
    obtain ⟨s, rfl⟩ := h a (by simp)
    obtain ⟨t, rfl⟩ := h b (by simp)
    cases left <;> simp [extract, tupSide, listSide, itemSide, nonEmpty]
  | a :: b :: c :: as, _ => simp [extract, tupSide, listSide, itemSide]

example : ∀ a ∈ [Atom.name "x", .name "y"], ∃ s, a = .name s := by simp

/-- C299: the names of one side may be given either in `on` or for that side, not both and not neither -/
theorem both_refused (on : On) (ns : List String) (left optional : Bool) :
    (on ≠ .none → ∃ e, extract on (some ns) left optional = .error e) ∧
    (∃ e, extract .none none left false = .error e) ∧
    (extract .none (some ns) left optional = .ok ns ↔ ns ≠ []) := by
  refine ⟨?_, ⟨_, rfl⟩, ?_⟩
  · intro h
    cases on with
    | none => exact absurd rfl h
    | name s => exact ⟨_, rfl⟩
    | tup l => exact ⟨_, rfl⟩
    | list l => exact ⟨_, rfl⟩
    | other => exact ⟨_, rfl⟩
  · unfold extract nonEmpty
    cases ns <;> simp

/-! ## types -/
variable (canCast : DT → DT → Bool)

theorem compatArr_nil (a b : Nat × DT) : compatArr canCast a b = [] ↔ a.1 = b.1 ∧ SameKind canCast a.2 b.2 := by
  unfold compatArr SameKind
  by_cases h : a.1 = b.1
  · simp only [h, ne_eq, not_true_eq_false, if_false, true_and]
    cases canCast a.2 b.2 <;> cases canCast b.2 a.2 <;> cases a.2.int <;> cases b.2.int <;> cases a.2.float <;>
      cases b.2.float <;> cases a.2.text <;> cases b.2.text <;> decide
  · simp [h]

theorem compatArr_error (a b : Nat × DT) : Trouble.error ∈ compatArr canCast a b ↔ a.1 ≠ b.1 := by
  unfold compatArr
  split
  · rename_i h; simp [h]
  · rename_i h
    constructor
    · intro hm
      split at hm
      · simp at hm
      · split at hm
        · simp at hm
        · split at hm
          · simp at hm
          · split at hm <;> simp at hm
    · intro h'; exact absurd h' h

theorem compatArrs_nil (ls rs : List (Nat × DT)) :
    compatArrs canCast ls rs = [] ↔
      ls ≠ [] ∧ List.Forall₂ (fun a b => a.1 = b.1 ∧ SameKind canCast a.2 b.2) ls rs := by
  unfold compatArrs
  by_cases he : ls = [] ∨ rs = []
  · have : (ls.isEmpty || rs.isEmpty) = true := by rcases he with rfl | rfl <;> simp
    rw [if_pos this]
    simp only [List.cons_ne_self, false_iff, not_and, reduceCtorEq]
    intro hl hf
    have := hf.length_eq
    rcases he with rfl | rfl
    · exact hl rfl
    · exact hl (List.length_eq_zero_iff.1 (by simpa using this))
  · rw [not_or] at he
    have : (ls.isEmpty || rs.isEmpty) = false := by simp [he.1, he.2]
    rw [this, if_neg (by simp)]
    by_cases hl : ls.length = rs.length
    · rw [if_neg (by simpa using hl), List.flatMap_eq_nil_iff, List.forall₂_iff_zip]
      constructor
      · intro h
        exact ⟨he.1, hl, fun {a b} hab => (compatArr_nil canCast a b).1 (h (a, b) hab)⟩
      · rintro ⟨-, -, h⟩ ⟨a, b⟩ hab
        exact (compatArr_nil canCast a b).2 (h hab)
    · rw [if_pos hl]
      simp only [reduceCtorEq, false_iff, not_and]
      intro _ hf
      exact hl hf.length_eq

theorem compatArrs_error (ls rs : List (Nat × DT)) :
    Trouble.error ∈ compatArrs canCast ls rs ↔
      ¬ (ls ≠ [] ∧ List.Forall₂ (fun a b => a.1 = b.1) ls rs) := by
  unfold compatArrs
  by_cases he : ls = [] ∨ rs = []
  · have : (ls.isEmpty || rs.isEmpty) = true := by rcases he with rfl | rfl <;> simp
    rw [if_pos this]
    simp only [List.mem_singleton, true_iff, not_and]
    intro hl hf
    have := hf.length_eq
    rcases he with rfl | rfl
    · exact hl rfl
    · exact hl (List.length_eq_zero_iff.1 (by simpa using this))
  · rw [not_or] at he
    have : (ls.isEmpty || rs.isEmpty) = false := by simp [he.1, he.2]
    rw [this, if_neg (by simp)]
    by_cases hl : ls.length = rs.length
    · rw [if_neg (by simpa using hl), List.mem_flatMap, List.forall₂_iff_zip]
      constructor
      · rintro ⟨⟨a, b⟩, hab, ht⟩ ⟨-, -, h⟩
        exact (compatArr_error canCast a b).1 ht (h hab)
      · intro h
        by_contra hno
        refine h ⟨he.1, hl, fun {a b} hab => ?_⟩
        by_contra hne
        exact hno ⟨(a, b), hab, (compatArr_error canCast a b).2 hne⟩
    · rw [if_pos hl]
      simp only [List.mem_singleton, true_iff, not_and]
      intro _ hf
      exact hl hf.length_eq

theorem compat_eq (l r : Key) (hl : ∀ cols, l = .cat cols → cols ≠ []) (hr : ∀ cols, r = .cat cols → cols ≠ []) :
    (compat canCast l r = [] ↔
      List.Forall₂ (fun a b => a.1 = b.1 ∧ SameKind canCast a.2 b.2) (columns l) (columns r)) ∧
    (Trouble.error ∈ compat canCast l r ↔ ¬ List.Forall₂ (fun a b => a.1 = b.1) (columns l) (columns r)) := by
  cases l with
  | cat ls =>
    have := hl ls rfl
    cases r with
    | cat rs => exact ⟨by simp [compat, columns, compatArrs_nil, this], by simp [compat, columns, compatArrs_error, this]⟩
    | arr c t => exact ⟨by simp [compat, columns, compatArrs_nil, this], by simp [compat, columns, compatArrs_error, this]⟩
  | arr c t =>
    cases r with
    | cat rs => exact ⟨by simp [compat, columns, compatArrs_nil], by simp [compat, columns, compatArrs_error]⟩
    | arr c' t' => exact ⟨by simp [compat, columns, compatArr_nil], by simp [compat, columns, compatArr_error]⟩

/-- C300: comparing two key columns refuses exactly if they are not as many arrays of the same classes, and passes without a
warning exactly if in addition each pair of types is of one kind; a Categorical counts as the list of its key columns. -/
theorem compat_exact (l r : Key) (hl : columns l ≠ []) (hr : columns r ≠ []) :
    (compat canCast l r = [] ↔
      List.Forall₂ (fun a b => a.1 = b.1 ∧ SameKind canCast a.2 b.2) (columns l) (columns r)) ∧
    (Trouble.error ∈ compat canCast l r ↔ ¬ List.Forall₂ (fun a b => a.1 = b.1) (columns l) (columns r)) :=
  compat_eq canCast l r (fun cols h => by subst h; exact hl) (fun cols h => by subst h; exact hr)

example : columns (.cat [(0, ⟨1, true, false, false⟩)]) ≠ [] := by decide

/-- C300: the verdict does not depend on which side is left -/
theorem compat_symm (l r : Key) (hl : columns l ≠ []) (hr : columns r ≠ []) :
    (compat canCast l r = [] ↔ compat canCast r l = []) ∧
    (Trouble.error ∈ compat canCast l r ↔ Trouble.error ∈ compat canCast r l) := by
  have s : ∀ a b : DT, SameKind canCast a b → SameKind canCast b a := by
    intro a b h
    unfold SameKind at *
    tauto
  rw [(compat_exact canCast l r hl hr).1, (compat_exact canCast r l hr hl).1, (compat_exact canCast l r hl hr).2,
    (compat_exact canCast r l hr hl).2]
  constructor
  · constructor <;> intro h <;> exact (h.flip).imp fun a b h => ⟨h.1.symm, s _ _ h.2⟩
  · rw [not_iff_not]
    constructor <;> intro h <;> exact (h.flip).imp fun a b h => h.symm

/-! ## merge2 -/

theorem keysOf_pairs (L R : Ds) (pairs : List (String × String)) (good : Key → Key → Prop)
    (hc : ∀ p ∈ pairs, ∃ l r, col L p.1 = some l ∧ col R p.2 = some r ∧ good l r) :
    ∃ ks : List (Key × Key), (pairs.filterMap fun p => col L p.1) = ks.map Prod.fst ∧
      (pairs.filterMap fun p => col R p.2) = ks.map Prod.snd ∧ ks.length = pairs.length ∧ ∀ k ∈ ks, good k.1 k.2 := by
  induction pairs with
  | nil => exact ⟨[], rfl, rfl, rfl, by simp⟩
  | cons p ps ih =>
    obtain ⟨ks, h1, h2, h3, h4⟩ := ih fun p hp => hc p (List.mem_cons_of_mem _ hp)
    obtain ⟨l, r, hl, hr, hg⟩ := hc p (by simp)
    refine ⟨(l, r) :: ks, ?_, ?_, by simp [h3], ?_⟩
    · rw [List.filterMap_cons, hl, h1]; rfl
    · rw [List.filterMap_cons, hr, h2]; rfl
    · rintro k hk
      rcases List.mem_cons.1 hk with rfl | hk
      · exact hg
      · exact h4 k hk

/-- C299: with the names in `on` as a list, `merge2` matches exactly the pairs of columns the entries mean, in their order -/
theorem merge2_on_exact (L R : Ds) (is : List Item) (pairs : List (String × String)) (w : Bool)
    (h : merge2Keys canCast L R (.list is) none none = .ok (pairs, w)) :
    is ≠ [] ∧ List.Forall₂ (fun i p => Means i p.1 p.2) is pairs ∧
      ∀ p ∈ pairs, (col L p.1).isSome = true ∧ (col R p.2).isSome = true := by
  unfold merge2Keys at h
  cases hl : extract (.list is) none true false with
  | error e => rw [hl] at h; cases h
  | ok ls =>
    cases hr : extract (.list is) none false false with
    | error e => rw [hl, hr] at h; cases h
    | ok rs =>
      rw [hl, hr] at h
      dsimp only at h
      split at h
      · cases h
      · rename_i hp
        split at h
        · cases h
        · obtain ⟨hne, ps, hm, rfl, rfl⟩ := (list_exact is ls rs).1 ⟨hl, hr⟩
          simp only [Except.ok.injEq, Prod.mk.injEq] at h
          have hz : (ps.map Prod.fst).zip (ps.map Prod.snd) = ps := by
            rw [List.zip_map']
            exact List.map_id ps
          rw [hz] at h
          obtain ⟨rfl, -⟩ := h
          refine ⟨hne, hm, fun p hp' => ?_⟩
          simp only [Bool.or_eq_true, List.any_eq_true, List.mem_map, not_or, not_exists, not_and] at hp
          refine ⟨?_, ?_⟩
          · have := hp.1 p.1 ⟨p, hp', rfl⟩
            cases hc : col L p.1 <;> simp_all
          · have := hp.2 p.2 ⟨p, hp', rfl⟩
            cases hc : col R p.2 <;> simp_all

/-- C299: and it accepts every list whose entries mean pairs of existing columns of the same classes -/
theorem merge2_on_accepts (L R : Ds) (is : List Item) (pairs : List (String × String)) (hne : is ≠ [])
    (hm : List.Forall₂ (fun i p => Means i p.1 p.2) is pairs)
    (hc : ∀ p ∈ pairs, ∃ l r, col L p.1 = some l ∧ col R p.2 = some r ∧
      (columns l ≠ [] ∧ columns r ≠ [] ∧ List.Forall₂ (fun a b => a.1 = b.1) (columns l) (columns r))) :
    ∃ w, merge2Keys canCast L R (.list is) none none = .ok (pairs, w) := by
  obtain ⟨hl, hr⟩ := (list_exact is _ _).2 ⟨hne, pairs, hm, rfl, rfl⟩
  have hz : (pairs.map Prod.fst).zip (pairs.map Prod.snd) = pairs := by
    rw [List.zip_map']
    exact List.map_id pairs
  have hp : ((pairs.map Prod.fst).any (fun n => (col L n).isNone) || (pairs.map Prod.snd).any fun n => (col R n).isNone) = false := by
    rw [Bool.or_eq_false_iff]
    constructor <;> rw [List.any_eq_false] <;> intro n hn <;> obtain ⟨p, hp, rfl⟩ := List.mem_map.1 hn <;>
      obtain ⟨l, r, h1, h2, -⟩ := hc p hp
    · rw [h1]; simp
    · rw [h2]; simp
  obtain ⟨ks, h1, h2, h3, h4⟩ := keysOf_pairs L R pairs _ hc
  have he : (compatAll canCast (ks.map Prod.fst) (ks.map Prod.snd)).contains Trouble.error = false := by
    have hks : ks ≠ [] := by
      rintro rfl
      have := hm.length_eq
      simp only [List.length_nil] at h3
      exact hne (List.length_eq_zero_iff.1 (by omega))
    unfold compatAll
    rw [if_neg (by simp [hks]), if_neg (by simp), List.zip_map', Bool.eq_false_iff]
    intro hmem
    rw [List.contains_iff_mem, List.mem_flatMap] at hmem
    obtain ⟨q, hq, ht⟩ := hmem
    obtain ⟨k, hk, rfl⟩ := List.mem_map.1 hq
    obtain ⟨g1, g2, g3⟩ := h4 k hk
    exact (compat_exact canCast k.1 k.2 g1 g2).2.1 ht g3
  refine ⟨(compatAll canCast (ks.map Prod.fst) (ks.map Prod.snd)).contains .warning, ?_⟩
  unfold merge2Keys
  rw [hl, hr]
  dsimp only
  rw [hp, hz, h1, h2, he]
  rfl

private def i8 : DT := ⟨1, true, false, false⟩
private def s5 : DT := ⟨2, false, false, true⟩

example : merge2Keys (fun a b => a == b) [("a", .arr 0 i8), ("b", .arr 0 s5)] [("a", .arr 0 i8), ("c", .arr 0 s5)]
    (.list [.name "a", .tup [.name "b", .name "c"]]) none none = .ok ([("a", "a"), ("b", "c")], false) := by decide +kernel

/-- names for each side: equally many names are paired in order -/
theorem merge2_sides_partial (L R : Ds) (ls rs : List String) (hlen : ls.length = rs.length) (pairs : List (String × String))
    (w : Bool) (h : merge2Keys canCast L R .none (some ls) (some rs) = .ok (pairs, w)) :
    pairs.map Prod.fst = ls ∧ pairs.map Prod.snd = rs := by
  unfold merge2Keys extract nonEmpty at h
  dsimp only at h
  split at h
  · cases h
  · rename_i l' h1
    split at h
    · cases h
    · rename_i r' h2
      split at h1
      · cases h1
      · split at h2
        · cases h2
        · cases h1; cases h2
          split at h
          · cases h
          · split at h
            · cases h
            · simp only [Except.ok.injEq, Prod.mk.injEq] at h
              obtain ⟨rfl, -⟩ := h
              exact ⟨List.map_fst_zip (by omega), List.map_snd_zip (by omega)⟩

example : merge2Keys (fun a b => a == b) [("a", .arr 0 i8)] [("c", .arr 0 i8)] .none (some ["a"]) (some ["c"]) =
    .ok ([("a", "c")], false) := by decide +kernel

/-- C299: names for each side may be differently many; the surplus names are ignored without an error -/
theorem merge2_sides_counterexample :
    merge2Keys (fun a b => a == b) [("a", .arr 0 i8), ("b", .arr 0 i8)] [("a", .arr 0 i8)] .none (some ["a", "b"])
      (some ["a"]) = .ok ([("a", "a")], false) := by decide +kernel

/-- C300: a text column is accepted as the partner of an integer column; there is only a warning -/
theorem kind_counterexample :
    merge2Keys (fun a b => a == b) [("a", .arr 0 i8)] [("a", .arr 0 s5)] (.name "a") none none = .ok ([("a", "a")], true) := by
  decide +kernel

end Verif.MergeKeys
