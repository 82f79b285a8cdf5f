import Verif.Make.Rows
import Std.Data.String.ToNat
/-!
# `from_jagged_rows` and `from_jagged_dict(stacked=False)`
-/
namespace Verif.Make
open Verif.Items (Dict)
open Verif.Idx (cell_eq_get)

theorem mapM_ok {A B : Type} {f : A → Except Err B} {g : A → B} : ∀ (l : List A), (∀ a ∈ l, f a = .ok (g a)) → l.mapM f = .ok (l.map g) := by
  intro l
  induction l with
  | nil => intro _; rfl
  | cons a l ih =>
    intro h
    rw [List.mapM_cons, h a List.mem_cons_self, ih fun x hx => h x (List.mem_cons_of_mem _ hx)]
    rfl

theorem mapM_error {A B : Type} {f : A → Except Err B} {e : Err} : ∀ (l : List A), (∃ a ∈ l, ∀ b, f a ≠ .ok b) →
    (∀ a ∈ l, ∀ e', f a = .error e' → e' = e) → l.mapM f = .error e := by
  intro l
  induction l with
  | nil => rintro ⟨a, ha, _⟩; simp at ha
  | cons a l ih =>
    rintro ⟨x, hx, hxb⟩ he
    rw [List.mapM_cons]
    cases ha : f a with
    | error e' => rw [he a List.mem_cons_self e' ha]; rfl
    | ok b =>
      rcases List.mem_cons.1 hx with rfl | hx
      · exact absurd ha (hxb b)
      · rw [ih ⟨x, hx, hxb⟩ fun y hy => he y (List.mem_cons_of_mem _ hy)]
        rfl

theorem foldl_max_ge (l : List Nat) : ∀ (a : Nat), a ≤ l.foldl max a ∧ ∀ x ∈ l, x ≤ l.foldl max a := by
  induction l with
  | nil => intro a; simp
  | cons y l ih =>
    intro a
    rw [List.foldl_cons]
    obtain ⟨h1, h2⟩ := ih (max a y)
    refine ⟨by omega, fun x hx => ?_⟩
    rcases List.mem_cons.1 hx with rfl | hx
    · omega
    · exact h2 x hx

theorem foldl_max_mem (l : List Nat) : ∀ (a : Nat), l.foldl max a = a ∨ l.foldl max a ∈ l := by
  induction l with
  | nil => intro a; simp
  | cons y l ih =>
    intro a
    rw [List.foldl_cons]
    rcases ih (max a y) with h | h
    · rw [h]
      rcases Nat.le_total a y with h' | h'
      · right; rw [Nat.max_eq_right h']; simp
      · left; exact Nat.max_eq_left h'
    · exact Or.inr (List.mem_cons_of_mem _ h)

theorem width_ok {rs : List (List Text)} : IsWidth rs ((rs.map width).foldl max 1) := by
  have hw : ∀ r : List Text, 1 ≤ width r ∧ (∀ x ∈ r, x.length ≤ width r) ∧ (width r = 1 ∨ ∃ x ∈ r, x.length = width r) := by
    intro r
    refine ⟨(foldl_max_ge _ 1).1, fun x hx => (foldl_max_ge _ 1).2 _ (List.mem_map_of_mem hx), ?_⟩
    rcases foldl_max_mem (r.map List.length) 1 with h | h
    · exact Or.inl h
    · obtain ⟨x, hx, h'⟩ := List.mem_map.1 h
      exact Or.inr ⟨x, hx, h'⟩
  refine ⟨(foldl_max_ge _ 1).1, ?_, ?_⟩
  · intro r hr x hx
    exact le_trans ((hw r).2.1 x hx) ((foldl_max_ge _ 1).2 _ (List.mem_map_of_mem hr))
  · rcases foldl_max_mem (rs.map width) 1 with h | h
    · exact Or.inl h
    · obtain ⟨r, hr, h'⟩ := List.mem_map.1 h
      rcases (hw r).2.2 with h1 | ⟨x, hx, h1⟩
      · left; rw [← h', h1]
      · right; exact ⟨r, hr, x, hx, by rw [h1, h']⟩

theorem longest_spec (rows : List (List Text)) : (∀ r ∈ rows, r.length ≤ longest rows) ∧ (longest rows = 0 ∨ ∃ r ∈ rows, r.length = longest rows) := by
  refine ⟨fun r hr => (foldl_max_ge _ 0).2 _ (List.mem_map_of_mem hr), ?_⟩
  rcases foldl_max_mem (rows.map List.length) 0 with h | h
  · exact Or.inl h
  · obtain ⟨r, hr, h'⟩ := List.mem_map.1 h
    exact Or.inr ⟨r, hr, h'⟩

theorem names_nodup (base : String) (n : Nat) : ((List.range n).map fun (i : Nat) => base ++ toString i).Nodup := by
  apply List.Nodup.map _ List.nodup_range
  intro i j h
  have h2 : toString i = toString j := by
    have := congrArg String.toList h
    simp only [String.toList_append] at this
    exact String.toList_injective (List.append_cancel_left this)
  exact Nat.repr_injective h2

/-- **C78** `from_jagged_rows` of rows of byte strings, with a fill value that is not bytes, or rows of the same length: column `base0`,
`base1`, ... up to the longest row; the item of column `i` in row `j` is item `i` of row `j`, and the fill value (cut to the longest string)
when the row is shorter. -/
theorem fromJagged_rows (rows : List (Bool × List Text)) (hne : rows ≠ []) (hu : ∀ r ∈ rows, r.1 = false) (base : String) (fill : Fill)
    (inv : Text) (hf : fill = .none ∧ inv = [] ∨ fill = .str inv ∨ fill = .other inv ∨
      (∀ r ∈ rows, r.2.length = longest (rows.map Prod.snd)) ∧ inv = []) :
    ∃ t w, fromJagged rows base fill = .ok t ∧ IsWidth (rows.map Prod.snd) w ∧
      t.map Prod.fst = (List.range (longest (rows.map Prod.snd))).map (fun (i : Nat) => base ++ toString i) ∧ Rect t rows.length ∧
      ∀ (i j : Nat) (r : List Text), i < longest (rows.map Prod.snd) → (rows.map Prod.snd)[j]? = some r →
        cell t (base ++ toString i) j = some ((r[i]?).getD (inv.take w)) := by
  have hun : rows.any (fun (r : Bool × List Text) => r.1) = false := by
    rw [List.any_eq_false]
    intro r hr
    simp [hu r hr]
  generalize hrs : rows.map Prod.snd = rs at *
  generalize hw : (rs.map width).foldl max 1 = w at *
  have hwd : IsWidth rs w := hw ▸ width_ok
  have hcol : ∀ (i : Nat), i < longest rs → jaggedCol rs w (fillText false fill) i = .ok (rs.map fun r => (r[i]?).getD (inv.take w)) := by
    intro i hi
    unfold jaggedCol
    apply mapM_ok
    intro r hr
    cases hri : r[i]? with
    | some x =>
      dsimp only
      rw [List.take_of_length_le (hwd.2.1 r hr x (List.mem_of_getElem? hri))]
      rfl
    | none =>
      rcases hf with ⟨rfl, rfl⟩ | rfl | rfl | ⟨h, _⟩
      · rfl
      · rfl
      · rfl
      · exfalso
        have hlen : r.length = longest rs := by
          rw [← hrs] at hr
          obtain ⟨q, hq, rfl⟩ := List.mem_map.1 hr
          exact h q hq
        rw [List.getElem?_eq_none_iff] at hri
        omega
  have hm : fromJagged rows base fill = .ok ((List.range (longest rs)).map fun (i : Nat) =>
      (base ++ toString i, rs.map fun r => (r[i]?).getD (inv.take w))) := by
    rw [fromJagged, if_neg hne]
    dsimp only
    rw [hun, hrs, hw, mapM_ok (g := fun (i : Nat) => (base ++ toString i, rs.map fun r => (r[i]?).getD (inv.take w)))]
    · dsimp only
      rw [dictZip_eq, ← List.unzip_fst, ← List.unzip_snd, List.zip_unzip]
      · rw [List.map_map]
        exact names_nodup base _
      · simp
    · intro i hi
      rw [List.mem_range] at hi
      rw [if_neg (by simp), hcol i hi]
  have hn : ((List.range (longest rs)).map fun (i : Nat) =>
      (base ++ toString i, rs.map fun r => (r[i]?).getD (inv.take w))).map Prod.fst = (List.range (longest rs)).map (fun (i : Nat) => base ++ toString i) := by
    rw [List.map_map]; rfl
  refine ⟨_, w, hm, hwd, hn, ⟨by rw [hn]; exact names_nodup base _, ?_⟩, ?_⟩
  · intro e he
    obtain ⟨i, _, rfl⟩ := List.mem_map.1 he
    rw [List.length_map, ← hrs, List.length_map]
  · intro i j r hi hj
    rw [cell_eq_get, Dict.get_of_mem (v := rs.map fun r => (r[i]?).getD (inv.take w)) (by rw [Dict.keys, hn]; exact names_nodup base _)
      (List.mem_map.2 ⟨i, List.mem_range.2 hi, rfl⟩), Option.bind_some, List.getElem?_map, hj]
    rfl

/-- Disagreement: with any row of unicode strings `from_jagged_rows` raises TypeError (the type is spelled `U3.0`). -/
theorem fromJagged_unicode (rows : List (Bool × List Text)) (hu : ∃ r ∈ rows, r.1 = true) (hl : ∃ r ∈ rows, r.2 ≠ []) (base : String) (fill : Fill) :
    fromJagged rows base fill = .error .type := by
  obtain ⟨r, hr, hrt⟩ := hu
  obtain ⟨q, hq, hqn⟩ := hl
  have hun : rows.any (fun (r : Bool × List Text) => r.1) = true := List.any_eq_true.2 ⟨r, hr, hrt⟩
  have hlong : 0 < longest (rows.map Prod.snd) := by
    have := (longest_spec (rows.map Prod.snd)).1 q.2 (List.mem_map_of_mem hq)
    have := List.length_pos_of_ne_nil hqn
    omega
  rw [fromJagged, if_neg (by rintro rfl; simp at hr)]
  dsimp only
  rw [hun, mapM_error (e := .type)]
  · exact ⟨0, List.mem_range.2 hlong, by simp⟩
  · intro a _ e' h
    rw [if_pos rfl] at h
    cases h
    rfl

/-- Disagreement: rows of byte strings of different lengths with a fill value of bytes raise UnboundLocalError. -/
theorem fromJagged_fill (rows : List (Bool × List Text)) (hu : ∀ r ∈ rows, r.1 = false) (base : String) (s : Text)
    (r q : Bool × List Text) (hr : r ∈ rows) (hq : q ∈ rows) (hlt : r.2.length < q.2.length) : fromJagged rows base (.bytes s) = .error .unboundLocal := by
  have hun : rows.any (fun (r : Bool × List Text) => r.1) = false := by
    rw [List.any_eq_false]
    intro r hr
    simp [hu r hr]
  have hlong := (longest_spec (rows.map Prod.snd)).1 q.2 (List.mem_map_of_mem hq)
  have hcol : ∀ (i : Nat) (w : Nat) (e : Err), jaggedCol (rows.map Prod.snd) w none i = .error e → e = .unboundLocal := by
    intro i w e h
    rw [jaggedCol] at h
    generalize rows.map Prod.snd = l at h
    induction l with
    | nil => simp [pure, Except.pure] at h
    | cons a l ih =>
      rw [List.mapM_cons] at h
      cases ha : a[i]? with
      | none => simp only [ha, bind, Except.bind] at h; cases h; rfl
      | some x =>
        simp only [ha, bind, Except.bind] at h
        split at h
        · rename_i e' he'
          cases h
          exact ih he'
        · cases h
  have hc : ∀ w, jaggedCol (rows.map Prod.snd) w none r.2.length = .error .unboundLocal := by
    intro w
    rw [jaggedCol]
    apply mapM_error
    · exact ⟨r.2, List.mem_map_of_mem hr, by simp⟩
    · intro a _ e' h
      cases ha : a[r.2.length]? with
      | none => simp only [ha] at h; cases h; rfl
      | some x => simp only [ha] at h; cases h
  rw [fromJagged, if_neg (by rintro rfl; simp at hr)]
  dsimp only
  rw [hun, mapM_error (e := .unboundLocal)]
  · refine ⟨r.2.length, List.mem_range.2 (by omega), ?_⟩
    intro b
    rw [if_neg (by simp)]
    have : fillText false (Fill.bytes s) = none := rfl
    rw [this, hc]
    simp
  · intro a _ e' h
    rw [if_neg (by simp)] at h
    have : fillText false (Fill.bytes s) = none := rfl
    rw [this] at h
    split at h
    · rename_i e2 he2
      cases h
      exact hcol _ _ _ he2
    · cases h

/-- No rows: ValueError. -/
theorem fromJagged_empty (base : String) (fill : Fill) : fromJagged [] base fill = .error .value := by simp [fromJagged]

/-- Disagreement: a fill value longer than all strings is cut. -/
theorem fromJagged_cut_counterexample : fromJagged [(false, [['a'], ['b']]), (false, [['c']])] "C" (.str ['x', 'y']) =
    .ok [("C0", [['a'], ['c']]), ("C1", [['b'], ['x']])] := by decide +kernel

example : fromJagged [(false, [['a'], ['b', 'c']]), (false, [['d']])] "C" .none = .ok [("C0", [['a'], ['d']]), ("C1", [['b', 'c'], []])] := by
  decide +kernel
example : ∀ r ∈ [(false, [['a'], ['b', 'c']]), (false, [['d']])], r.1 = false := by decide +kernel

/-! ## `from_jagged_dict(stacked=False)` -/

/-- Disagreement: the documentation names the column of a key with one item per row by the key; the code appends a number. -/
theorem jaggedDict_name_counterexample : jaggedDict [("a", [(false, [['x']]), (false, [['y']])])] .none = .ok [("a0", [['x'], ['y']])] := by
  decide +kernel

/-- Disagreement: names of columns of different keys can be the same, the earlier column is lost. -/
theorem jaggedDict_clash_counterexample : jaggedDict [("a", [(false, List.replicate 11 ['x'])]), ("a1", [(false, [['y']])])] .none =
    .ok ((List.range 10).map (fun (i : Nat) => ("a" ++ toString i, [['x']])) ++ [("a10", [['y']])]) := by decide +kernel

end Verif.Make
