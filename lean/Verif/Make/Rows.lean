import Verif.Make.Props
import Mathlib.Data.String.Basic
import Mathlib.Data.List.Sort
/-!
# `from_rows` and `from_tagged_rows`
-/
namespace Verif.Make
open Verif.Items (Dict)
open Verif.Idx (cell_eq_get)

variable {V : Type}

theorem fold_set {A : Type} : ∀ (l d : Dict String A), ((d ++ l).map Prod.fst).Nodup →
    l.foldl (fun (o : Dict String A) (e : String × A) => Dict.set o e.1 e.2) d = d ++ l := by
  intro l
  induction l with
  | nil => intro d _; simp
  | cons e l ih =>
    intro d h
    have hne : e.1 ∉ Dict.keys d := by
      rw [List.map_append, List.map_cons, List.nodup_append] at h
      exact fun hc => h.2.2 e.1 hc e.1 (by simp) rfl
    rw [List.foldl_cons, Dict.set_of_notMem hne, ih]
    · simp
    · simpa using h

theorem dictZip_eq {A : Type} (names : List String) (cols : List A) (hn : names.Nodup) (hl : cols.length = names.length) :
    dictZip names cols = names.zip cols := by
  rw [dictZip, fold_set]
  · rfl
  · rw [List.nil_append, List.map_fst_zip (by omega)]
    exact hn

theorem cell_zip {names : List String} {cols : List (List V)} (hn : names.Nodup) (hl : cols.length = names.length) {j i : Nat} {c : String}
    (hj : names[j]? = some c) : cell (names.zip cols) c i = (cols[j]?).bind fun l => l[i]? := by
  have hjl : j < names.length := (List.getElem?_eq_some_iff.1 hj).1
  have hm : (c, cols[j]'(by omega)) ∈ names.zip cols := by
    apply List.mem_of_getElem? (i := j)
    rw [List.getElem?_zip_eq_some]
    exact ⟨hj, List.getElem?_eq_getElem (by omega)⟩
  have hk : (Dict.keys (names.zip cols)).Nodup := by rw [Dict.keys, List.map_fst_zip (by omega)]; exact hn
  rw [cell_eq_get, Dict.get_of_mem hk hm, List.getElem?_eq_getElem (l := cols) (i := j) (by omega)]

theorem rowLoop_ok (n : Nat) : ∀ (rows cols : List (List V)), cols.length = n → (∀ r ∈ rows, r.length = n) → ∃ R, rowLoop n rows cols = .ok R ∧
    R.length = n ∧ ∀ (j : Nat) (c : List V), cols[j]? = some c → ∃ e, R[j]? = some (c ++ e) ∧ e.map some = rows.map fun r => r[j]? := by
  intro rows
  induction rows with
  | nil =>
    intro cols hl _
    exact ⟨cols, rfl, hl, fun j c hc => ⟨[], by simpa using hc, rfl⟩⟩
  | cons r rs ih =>
    intro cols hl hr
    have hrl : r.length = n := hr r List.mem_cons_self
    obtain ⟨R, h1, h2, h3⟩ := ih (List.zipWith (fun (c : List V) (x : V) => c ++ [x]) cols r) (by simp; omega)
      (fun r hr' => hr r (List.mem_cons_of_mem _ hr'))
    refine ⟨R, ?_, h2, ?_⟩
    · rw [rowLoop, if_neg (by simp [hrl])]
      exact h1
    · intro j c hc
      have hj : j < r.length := by have := (List.getElem?_eq_some_iff.1 hc).1; omega
      obtain ⟨e, he1, he2⟩ := h3 j (c ++ [r[j]]) (by rw [List.getElem?_zipWith, hc, List.getElem?_eq_getElem hj])
      refine ⟨r[j] :: e, by simpa using he1, ?_⟩
      simp only [List.map_cons, he2, List.getElem?_eq_getElem hj]

theorem rowLoop_error (n : Nat) : ∀ (rows cols : List (List V)), (∃ r ∈ rows, r.length ≠ n) → rowLoop n rows cols = .error .value := by
  intro rows
  induction rows with
  | nil => intro _ h; obtain ⟨r, hr, _⟩ := h; simp at hr
  | cons r rs ih =>
    intro cols h
    rw [rowLoop]
    by_cases hr : r.length ≠ n
    · rw [if_pos hr]
    · rw [if_neg hr]
      obtain ⟨x, hx, hxn⟩ := h
      rcases List.mem_cons.1 hx with rfl | hx
      · exact absurd hxn hr
      · exact ih _ ⟨x, hx, hxn⟩

/-- **C77** `Dataset.from_rows(rows, names)` with different names and rows of the right length is the table with these rows. -/
theorem fromRows_rows (rows : List (List V)) (names : List String) (hn : names.Nodup) (hr : ∀ r ∈ rows, r.length = names.length) :
    ∃ t, fromRows rows names = .ok t ∧ HasRows names rows t := by
  by_cases h0 : names.length = 0
  · have : names = [] := List.length_eq_zero_iff.1 h0
    subst this
    exact ⟨[], rfl, ⟨rfl, ⟨by simp, by simp⟩, by simp⟩⟩
  · obtain ⟨R, h1, h2, h3⟩ := rowLoop_ok names.length rows (names.map fun _ => []) (by simp) hr
    have hcol : ∀ (j : Nat), j < names.length → ∃ e : List V, R[j]? = some e ∧ e.map some = rows.map fun r => r[j]? := by
      intro j hj
      obtain ⟨e, he, he'⟩ := h3 j [] (by rw [List.getElem?_map, List.getElem?_eq_getElem hj]; rfl)
      exact ⟨e, by simpa using he, he'⟩
    have hlen : ∀ (j : Nat) (e : List V), R[j]? = some e → e.length = rows.length := by
      intro j e he
      have hj : j < R.length := (List.getElem?_eq_some_iff.1 he).1
      obtain ⟨e', a, b⟩ := hcol j (by omega)
      rw [he] at a
      cases a
      have := congrArg List.length b
      simpa using this
    refine ⟨names.zip R, ?_, ?_, ⟨?_, ?_⟩, ?_⟩
    · rw [fromRows, if_neg h0, h1]
      dsimp only
      rw [dictZip_eq names R hn h2]
    · rw [List.map_fst_zip (by omega)]
    · rw [List.map_fst_zip (by omega)]; exact hn
    · intro e he
      obtain ⟨k, hk⟩ := List.mem_iff_getElem?.1 he
      rw [List.getElem?_zip_eq_some] at hk
      exact hlen k _ hk.2
    · intro i j c hi hj
      have hjl : j < names.length := (List.getElem?_eq_some_iff.1 hj).1
      obtain ⟨e, he, he'⟩ := hcol j hjl
      rw [cell_zip hn h2 hj, he]
      have := congrArg (fun (l : List (Option V)) => l[i]?) he'
      simp only [List.getElem?_map, List.getElem?_eq_getElem hi, Option.map_some] at this
      rw [List.getElem?_eq_getElem hi]
      simp only [Option.bind_some]
      cases hei : e[i]? with
      | none => rw [hei] at this; simp at this
      | some x => rw [hei] at this; simpa using this

/-- **C77** A row of another length is refused. -/
theorem fromRows_raises (rows : List (List V)) (names : List String) (h0 : names ≠ []) (h : ∃ r ∈ rows, r.length ≠ names.length) :
    fromRows rows names = .error .value := by
  rw [fromRows, if_neg (by simpa using h0), rowLoop_error _ _ _ h]

/-- Disagreement: a repeated column name is accepted and the earlier column is lost. -/
theorem fromRows_names_counterexample : fromRows [["1", "2"], ["3", "4"]] ["a", "a"] = .ok [("a", ["2", "4"])] := by decide +kernel

/-- Disagreement: without names the rows are dropped, whatever their length. -/
theorem fromRows_nonames_counterexample : fromRows [["1", "2"]] [] = .ok [] := by decide +kernel

example : fromRows [["1", "2"], ["3", "4"]] ["a", "b"] = .ok [("a", ["1", "3"]), ("b", ["2", "4"])] := by decide +kernel
example : (["a", "b"] : List String).Nodup ∧ ∀ r ∈ [["1", "2"], ["3", "4"]], r.length = (["a", "b"] : List String).length := by decide +kernel

/-! ## `from_tagged_rows` -/

theorem mem_allKeys (rows : List (Dict String V)) (c : String) : c ∈ allKeys rows ↔ ∃ r ∈ rows, c ∈ Dict.keys r := by
  rw [allKeys, List.mem_eraseDups, List.mem_flatMap]

theorem countKey_all (rows : List (Dict String V)) (c : String) (h : ∀ r ∈ rows, c ∈ Dict.keys r) : countKey rows c = rows.length := by
  rw [countKey, List.filter_eq_self.2]
  intro r hr
  exact (Dict.has_iff _ _).2 (h r hr)

theorem countKey_lt (rows : List (Dict String V)) (c : String) (r : Dict String V) (hr : r ∈ rows) (h : c ∉ Dict.keys r) :
    countKey rows c < rows.length := by
  rw [countKey]
  rcases Nat.lt_or_ge (rows.filter fun (r : Dict String V) => Dict.has r c).length rows.length with h1 | h1
  · exact h1
  · exfalso
    have := List.filter_eq_self.1 ((List.filter_sublist (l := rows) (p := fun (r : Dict String V) => Dict.has r c)).eq_of_length_le h1) r hr
    exact h ((Dict.has_iff _ _).1 this)

/-- what the keys become -/
theorem fromTagged_eq (rows : List (Dict String V)) (h : ∀ k ∈ allKeys rows, ∀ k' ∈ allKeys rows, countKey rows k' = countKey rows k) :
    fromTagged rows = .ok (((allKeys rows).insertionSort fun (a b : String) => a ≤ b).map fun (c : String) =>
      (c, rows.filterMap fun (r : Dict String V) => Dict.get r c)) := by
  rw [fromTagged]
  cases hk : allKeys rows with
  | nil => rfl
  | cons k ks =>
    dsimp only
    rw [if_neg]
    rw [not_not, List.all_eq_true]
    intro k' hk'
    rw [hk] at h
    simpa using h k List.mem_cons_self k' (List.mem_cons_of_mem _ hk')

theorem fromTagged_raises (rows : List (Dict String V)) (k k' : String) (h1 : k ∈ allKeys rows) (h2 : k' ∈ allKeys rows)
    (h : countKey rows k' ≠ countKey rows k) : fromTagged rows = .error .notImplemented := by
  rw [fromTagged]
  cases hk : allKeys rows with
  | nil => rw [hk] at h1; simp at h1
  | cons x xs =>
    dsimp only
    rw [if_pos]
    rw [List.all_eq_true]
    intro hall
    have key : ∀ y ∈ x :: xs, countKey rows y = countKey rows x := by
      intro y hy
      rcases List.mem_cons.1 hy with rfl | hy
      · rfl
      · simpa using hall y hy
    rw [hk] at h1 h2
    exact h ((key _ h2).trans (key _ h1).symm)

theorem filterMap_all {A B : Type} (f : A → Option B) : ∀ (l : List A), (∀ a ∈ l, (f a).isSome) → (l.filterMap f).map some = l.map f := by
  intro l
  induction l with
  | nil => intro _; rfl
  | cons a l ih =>
    intro h
    obtain ⟨b, hb⟩ := Option.isSome_iff_exists.1 (h a List.mem_cons_self)
    rw [List.filterMap_cons, hb]
    simp only [List.map_cons, hb]
    rw [ih fun x hx => h x (List.mem_cons_of_mem _ hx)]

/-- **C77** `Dataset.from_tagged_rows(rows)` of dictionaries with the same keys: the columns are the keys, sorted, and the item of column `c`
in row `i` is what dictionary `i` has for `c`. -/
theorem fromTagged_rows (rows : List (Dict String V)) (ks : List String) (hne : rows ≠ []) (hnd : ks.Nodup)
    (hk : ∀ r ∈ rows, ∀ c, c ∈ Dict.keys r ↔ c ∈ ks) :
    ∃ t, fromTagged rows = .ok t ∧ (t.map Prod.fst).Perm ks ∧ (t.map Prod.fst).Pairwise (· ≤ ·) ∧ Rect t rows.length ∧
      ∀ (i : Nat) (c : String) (r : Dict String V), rows[i]? = some r → c ∈ ks → cell t c i = Dict.get r c := by
  have hall : ∀ c, c ∈ allKeys rows ↔ c ∈ ks := by
    intro c
    rw [mem_allKeys]
    constructor
    · rintro ⟨r, hr, hc⟩; exact (hk r hr c).1 hc
    · intro hc
      obtain ⟨r, hr⟩ := List.exists_mem_of_ne_nil rows hne
      exact ⟨r, hr, (hk r hr c).2 hc⟩
  have hand : (allKeys rows).Nodup := Verif.Merge2.nodup_eraseDups_beq _
  have hsome : ∀ c ∈ ks, ∀ r ∈ rows, (Dict.get r c).isSome := by
    intro c hc r hr
    cases hg : Dict.get r c with
    | some _ => rfl
    | none => exact absurd ((hk r hr c).2 hc) ((Dict.get_eq_none_iff _ _).1 hg)
  have hperm : ((allKeys rows).insertionSort fun (a b : String) => a ≤ b).Perm ks :=
    (List.perm_insertionSort _ _).trans ((List.perm_ext_iff_of_nodup hand hnd).2 hall)
  have hmap : ((((allKeys rows).insertionSort fun (a b : String) => a ≤ b).map fun (c : String) =>
      (c, rows.filterMap fun (r : Dict String V) => Dict.get r c))).map Prod.fst = (allKeys rows).insertionSort fun (a b : String) => a ≤ b := by
    rw [List.map_map]; exact List.map_id _
  have hknd : ((allKeys rows).insertionSort fun (a b : String) => a ≤ b).Nodup := hperm.nodup_iff.2 hnd
  refine ⟨_, fromTagged_eq rows ?_, ?_, ?_, ⟨?_, ?_⟩, ?_⟩
  · intro k hk1 k' hk2
    rw [countKey_all rows k fun r hr => (hk r hr k).2 ((hall k).1 hk1), countKey_all rows k' fun r hr => (hk r hr k').2 ((hall k').1 hk2)]
  · rw [hmap]; exact hperm
  · rw [hmap]
    exact List.pairwise_insertionSort _ _
  · rw [hmap]; exact hknd
  · intro e he
    obtain ⟨c, hc, rfl⟩ := List.mem_map.1 he
    have := congrArg List.length (filterMap_all (fun (r : Dict String V) => Dict.get r c) rows (hsome c (hperm.mem_iff.1 hc)))
    simpa using this
  · intro i c r hi hc
    have hg : Dict.get ((((allKeys rows).insertionSort fun (a b : String) => a ≤ b).map fun (c : String) =>
      (c, rows.filterMap fun (r : Dict String V) => Dict.get r c))) c = some (rows.filterMap fun (r : Dict String V) => Dict.get r c) := by
      apply Dict.get_of_mem
      · rw [Dict.keys, hmap]; exact hknd
      · exact List.mem_map.2 ⟨c, hperm.mem_iff.2 hc, rfl⟩
    rw [cell_eq_get, hg, Option.bind_some]
    have := congrArg (fun (l : List (Option V)) => l[i]?) (filterMap_all (fun (r : Dict String V) => Dict.get r c) rows (hsome c hc))
    simp only [List.getElem?_map, hi, Option.map_some] at this
    cases he : (rows.filterMap fun (r : Dict String V) => Dict.get r c)[i]? with
    | none => rw [he] at this; simp at this
    | some x => rw [he] at this; simpa using this

/-- **C77**, the part that holds of "rows with different keys are refused": when some key is in every row and another key is in some rows
only, NotImplementedError is raised. Missing: rows with different keys and no key in all of them, see the counterexample. -/
theorem fromTagged_raises_partial (rows : List (Dict String V)) (k k' : String) (r r' : Dict String V) (hk : ∀ r ∈ rows, k ∈ Dict.keys r)
    (hr : r ∈ rows) (hr' : r' ∈ rows) (h1 : k' ∈ Dict.keys r) (h2 : k' ∉ Dict.keys r') : fromTagged rows = .error .notImplemented := by
  apply fromTagged_raises rows k k' ((mem_allKeys _ _).2 ⟨r, hr, hk r hr⟩) ((mem_allKeys _ _).2 ⟨r, hr, h1⟩)
  rw [countKey_all rows k hk]
  exact Nat.ne_of_lt (countKey_lt rows k' r' hr' h2)

/-- Disagreement: the test compares only how often each key occurs, so `[{'a': 1}, {'b': 2}]` is accepted and becomes one row that was
never given. -/
theorem fromTagged_counterexample : fromTagged [[("a", "1")], [("b", "2")]] = .ok [("a", ["1"]), ("b", ["2"])] := by decide +kernel

/-- Disagreement: a row without keys disappears. -/
theorem fromTagged_empty_counterexample : fromTagged [[("a", "1"), ("b", "2")], []] = .ok [("a", ["1"]), ("b", ["2"])] := by decide +kernel

example : fromTagged [[("b", "1"), ("a", "2")], [("a", "3"), ("b", "4")]] = .ok [("a", ["2", "3"]), ("b", ["1", "4"])] := by decide +kernel
example : (["a", "b"] : List String).Nodup ∧ ∀ r ∈ ([[("b", "1"), ("a", "2")], [("a", "3"), ("b", "4")]] : List (Dict String String)),
    Dict.keys r ⊆ ["a", "b"] ∧ ["a", "b"] ⊆ Dict.keys r := by decide +kernel
example : fromTagged [[("a", "1"), ("b", "2")], [("a", "3")]] = .error .notImplemented := by decide +kernel

end Verif.Make
