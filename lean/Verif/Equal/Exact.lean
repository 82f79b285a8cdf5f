import Verif.Equal.Props

/-!
# `Dataset.equals(exact=True)` (C81)
-/
namespace Verif.Equal
open Verif.Items (Dict)
open Spec (Same SameCol SameContents SameInOrder)
variable {C : Type}

/-- the element in row `i` of column `j` -/
def cellAt (d : Ds C) (i j : Nat) : Option C := (d.cols[j]?).bind fun e => e.2[i]?

theorem vstackF_some {cols : List (List Bool)} {n : Nat} (h0 : cols ≠ []) (hl : ∀ v ∈ cols, v.length = n) :
    ∃ m, vstackF cols = some m ∧ m.r = n ∧ m.c = cols.length
      ∧ ∀ i j, m.at' i j = ((cols[j]?).bind fun w => w[i]?).getD false := by
  cases cols with
  | nil => exact absurd rfl h0
  | cons v vs =>
    simp only [vstackF]
    rw [if_pos]
    · exact ⟨_, rfl, hl v (by simp), rfl, fun _ _ => rfl⟩
    · rw [List.all_eq_true]
      intro w hw
      simp [hl w (by simp [hw]), hl v (by simp)]

theorem isnanMat_some (nan : C → Bool) {d : Ds C} (w : WF d) (h0 : d.cols ≠ []) :
    ∃ m, isnanMat nan d = some m ∧ m.r = d.nrows ∧ m.c = d.cols.length
      ∧ ∀ i j, m.at' i j = ((cellAt d i j).map nan).getD false := by
  obtain ⟨m, h1, h2, h3, h4⟩ := vstackF_some (cols := d.cols.map fun e => e.2.map nan) (n := d.nrows)
    (by simpa using h0) (by
      intro v hv
      obtain ⟨e, he, rfl⟩ := List.mem_map.mp hv
      simp [w.len e he])
  refine ⟨m, h1, h2, by simpa using h3, fun i j => ?_⟩
  rw [h4, List.getElem?_map]
  unfold cellAt
  cases d.cols[j]? with
  | none => rfl
  | some e => simp

/-- the row of the other Dataset that row `i` is compared with -/
def across (n m i : Nat) : Nat := if m = n then i else 0

theorem vecEq_some {eq : C → C → Bool} {v w : List C} (h : w.length = v.length ∨ w.length = 1) :
    ∃ l, vecEq eq v w = some l ∧ l.length = v.length
      ∧ ∀ i x y, v[i]? = some x → w[across v.length w.length i]? = some y → l[i]? = some (eq x y) := by
  unfold vecEq
  by_cases hl : v.length = w.length
  · rw [if_pos hl]
    refine ⟨_, rfl, by simp [hl], fun i x y hx hy => ?_⟩
    rw [across, if_pos hl.symm] at hy
    simp [List.getElem?_zipWith, hx, hy]
  · rw [if_neg hl]
    rcases h with h | h
    · exact absurd h.symm hl
    · obtain ⟨y0, rfl⟩ := List.length_eq_one_iff.mp h
      refine ⟨v.map fun x => eq x y0, ?_, by simp, fun i x y hx hy => ?_⟩
      · cases v with
        | nil => rfl
        | cons a t => rfl
      · rw [across, if_neg (by simpa using Ne.symm hl)] at hy
        simp only [List.getElem?_cons_zero, Option.some.injEq] at hy
        simp [hx, hy]

theorem mapM_some {A B : Type} (f : A → Option B) (l : List A) (h : ∀ x ∈ l, ∃ y, f x = some y) :
    ∃ r, l.mapM f = some r ∧ r.length = l.length ∧ ∀ (j : Nat) x, l[j]? = some x → r[j]? = f x := by
  induction l with
  | nil => exact ⟨[], rfl, rfl, by simp⟩
  | cons a l ih =>
    obtain ⟨y, hy⟩ := h a (by simp)
    obtain ⟨r, h1, h2, h3⟩ := ih fun x hx => h x (List.mem_cons_of_mem _ hx)
    refine ⟨y :: r, ?_, by simp [h2], fun j x hx => ?_⟩
    · rw [List.mapM_cons, hy]
      simp [h1]
    · cases j with
      | zero => simp at hx; subst hx; simp [hy]
      | succ j => simpa using h3 j x (by simpa using hx)

theorem inplace_none {op : Bool → Bool → Bool} {m x : Mat}
    (h : ¬ ((x.r = m.r ∨ x.r = 1) ∧ (x.c = m.c ∨ x.c = 1))) : inplace op m x = none := by
  unfold inplace; rw [if_neg h]

theorem isnanMat_none (nan : C → Bool) {d : Ds C} (h0 : d.cols = []) : isnanMat nan d = none := by
  unfold isnanMat; rw [h0]; rfl

/-- **What `equals(exact=True)` tests**, for all Datasets: both have columns; the other has as
many columns or one, and as many rows or one; and each element is NaN together with the one it
is broadcast against, or the *broadcast column* is equal there.  Names are not looked at. -/
theorem exact_tests (eq : C → C → Bool) (nan : C → Bool) {a b : Ds C} (wa : WF a) (wb : WF b) :
    equalsExact eq nan a b = true ↔
      a.cols ≠ [] ∧ b.cols ≠ []
      ∧ (b.nrows = a.nrows ∨ b.nrows = 1) ∧ (b.cols.length = a.cols.length ∨ b.cols.length = 1)
      ∧ ∀ i j, i < a.nrows → j < a.cols.length →
        ∀ x x' y, cellAt a i j = some x →
          cellAt a i (across a.cols.length b.cols.length j) = some x' →
          cellAt b (across a.nrows b.nrows i) (across a.cols.length b.cols.length j) = some y →
          nan x = true ∧ nan y = true ∨ eq x' y = true := by
  unfold equalsExact exactTable
  by_cases ha : a.cols = []
  · simp [isnanMat_none nan ha, matAll, ha]
  by_cases hb : b.cols = []
  · obtain ⟨ma, h1, -⟩ := isnanMat_some nan wa ha
    simp [h1, isnanMat_none nan hb, matAll, hb]
  obtain ⟨ma, ha1, ha2, ha3, ha4⟩ := isnanMat_some nan wa ha
  obtain ⟨mb, hb1, hb2, hb3, hb4⟩ := isnanMat_some nan wb hb
  rw [ha1, hb1]
  simp only [Option.bind_some]
  by_cases hs : (b.nrows = a.nrows ∨ b.nrows = 1) ∧ (b.cols.length = a.cols.length ∨ b.cols.length = 1)
  swap
  · rw [inplace_none (by rw [ha2, ha3, hb2, hb3]; exact hs)]
    simp only [Option.bind_none, matAll, Bool.false_eq_true, false_iff]
    rintro ⟨-, -, h1, h2, -⟩
    exact hs ⟨h1, h2⟩
  obtain ⟨hr, hc⟩ := hs
  have hm : inplace and ma mb = some ⟨ma.r, ma.c, fun i j => and (ma.at' i j)
      (mb.at' (if mb.r = ma.r then i else 0) (if mb.c = ma.c then j else 0))⟩ := by
    unfold inplace
    rw [if_pos (by rw [ha2, ha3, hb2, hb3]; exact ⟨hr, hc⟩)]
  rw [hm, Option.bind_some]
  -- the comparison of the columns
  have hzl : (a.cols.zip b.cols).length = b.cols.length := by
    rw [List.length_zip]
    have : 0 < a.cols.length := List.length_pos_of_ne_nil ha
    omega
  obtain ⟨r, hr1, hr2, hr3⟩ := mapM_some (fun p : (String × List C) × (String × List C) =>
      vecEq eq p.1.2 p.2.2) (a.cols.zip b.cols) (by
    intro p hp
    obtain ⟨l, hl, -⟩ := vecEq_some (eq := eq) (v := p.1.2) (w := p.2.2) (by
      rw [wa.len _ (List.of_mem_zip hp).1, wb.len _ (List.of_mem_zip hp).2]; exact hr)
    exact ⟨l, hl⟩)
  have hcol : ∀ (j : Nat) l, r[j]? = some l → ∃ e e', a.cols[j]? = some e ∧ b.cols[j]? = some e'
      ∧ vecEq eq e.2 e'.2 = some l ∧ e.2.length = a.nrows ∧ e'.2.length = b.nrows := by
    intro j l hl
    have hj : j < (a.cols.zip b.cols).length := by
      rw [← hr2]; exact (List.getElem?_eq_some_iff.mp hl).1
    obtain ⟨p, hp⟩ : ∃ p, (a.cols.zip b.cols)[j]? = some p := ⟨_, List.getElem?_eq_getElem hj⟩
    have := hr3 j p hp
    rw [hl] at this
    rw [List.getElem?_zip_eq_some] at hp
    exact ⟨p.1, p.2, hp.1, hp.2, this.symm, wa.len _ (List.mem_of_getElem? hp.1),
      wb.len _ (List.mem_of_getElem? hp.2)⟩
  have hrne : r ≠ [] := by
    intro h
    rw [h, hzl] at hr2
    exact hb (List.eq_nil_of_length_eq_zero hr2.symm)
  obtain ⟨me, he1, he2, he3, he4⟩ := vstackF_some (cols := r) (n := a.nrows) hrne (by
    intro l hl
    obtain ⟨j, hj⟩ := List.getElem?_of_mem hl
    obtain ⟨e, e', h1, h2, h3, h4, h5⟩ := hcol j l hj
    obtain ⟨l', h6, h7, -⟩ := vecEq_some (eq := eq) (v := e.2) (w := e'.2) (by rw [h4, h5]; exact hr)
    rw [h3] at h6
    rw [Option.some.inj h6, h7, h4])
  have heq : eqMat eq a b = some me := by
    unfold eqMat
    rw [hr1, Option.bind_some, he1]
  rw [heq, Option.bind_some]
  have hec : me.c = b.cols.length := by rw [he3, hr2, hzl]
  unfold inplace
  rw [if_pos (by rw [he2, hec]; simp only [ha2, ha3]; exact ⟨.inl trivial, hc⟩)]
  simp only [matAll, List.all_eq_true, List.mem_range, Bool.or_eq_true, Bool.and_eq_true, he2, hec,
    ha2, ha3, hb2, hb3, if_true, ne_eq, ha, hb, not_false_eq_true, true_and, hr, hc]
  -- element by element
  refine forall_congr' fun i => ?_
  constructor
  · intro h j hi hj x x' y hx hx' hy
    have := h hi j hj
    rw [ha4, hb4, hx, he4] at this
    simp only [across] at hx' hy this
    rw [hy] at this
    rcases this with h1 | h1
    · left; simpa using h1
    · right
      cases hl : r[if b.cols.length = a.cols.length then j else 0]? with
      | none => rw [hl] at h1; simp at h1
      | some l =>
        rw [hl] at h1
        simp only [Option.bind_some] at h1
        obtain ⟨e, e', g1, g2, g3, g4, g5⟩ := hcol _ l hl
        obtain ⟨l', g6, g7, g8⟩ := vecEq_some (eq := eq) (v := e.2) (w := e'.2) (by rw [g4, g5]; exact hr)
        rw [g3] at g6
        obtain rfl := Option.some.inj g6
        simp only [cellAt, g1, Option.bind_some] at hx'
        simp only [cellAt, g2, Option.bind_some] at hy
        rw [g8 i x' y hx' (by rw [g4, g5]; exact hy)] at h1
        simpa using h1
  · intro h hi j hj
    have hbpos : 0 < b.cols.length := List.length_pos_of_ne_nil hb
    have hapos : 0 < a.cols.length := List.length_pos_of_ne_nil ha
    have hcell : ∀ j, j < a.cols.length → ∃ x, cellAt a i j = some x := by
      intro j hj
      unfold cellAt
      rw [List.getElem?_eq_getElem hj, Option.bind_some]
      exact ⟨_, List.getElem?_eq_getElem (by rw [wa.len _ (List.getElem_mem hj)]; exact hi)⟩
    obtain ⟨x, hx⟩ := hcell j hj
    have hj' : across a.cols.length b.cols.length j < b.cols.length := by
      unfold across; split <;> omega
    have hj'' : across a.cols.length b.cols.length j < a.cols.length := by
      unfold across; split <;> omega
    obtain ⟨x', hx'⟩ := hcell _ hj''
    have hi' : across a.nrows b.nrows i < b.nrows := by
      unfold across; split <;> omega
    obtain ⟨y, hy⟩ : ∃ y, cellAt b (across a.nrows b.nrows i) (across a.cols.length b.cols.length j) = some y := by
      unfold cellAt
      rw [List.getElem?_eq_getElem hj', Option.bind_some]
      exact ⟨_, List.getElem?_eq_getElem (by rw [wb.len _ (List.getElem_mem hj')]; exact hi')⟩
    have := h j hi hj x x' y hx hx' hy
    rw [ha4, hb4, hx, he4]
    rcases this with h1 | h1
    · left
      unfold across at hy
      rw [hy]
      simpa using h1
    · right
      obtain ⟨l, hl⟩ : ∃ l, r[across a.cols.length b.cols.length j]? = some l :=
        ⟨_, List.getElem?_eq_getElem (by rw [hr2, hzl]; exact hj')⟩
      obtain ⟨e, e', g1, g2, g3, g4, g5⟩ := hcol _ l hl
      obtain ⟨l', g6, g7, g8⟩ := vecEq_some (eq := eq) (v := e.2) (w := e'.2) (by rw [g4, g5]; exact hr)
      rw [g3] at g6
      obtain rfl := Option.some.inj g6
      simp only [cellAt, g1, Option.bind_some] at hx'
      simp only [cellAt, g2, Option.bind_some] at hy
      have g9 := g8 i x' y hx' (by rw [g4, g5]; exact hy)
      show ((r[across a.cols.length b.cols.length j]?).bind fun w => w[i]?).getD false = true
      rw [hl, Option.bind_some, g9]
      simpa using h1

theorem get_at {d : Ds C} (w : WF d) {j : Nat} {k : String} (h : d.cols.keys[j]? = some k) :
    ∃ v, d.cols[j]? = some (k, v) ∧ d.cols.get k = some v := by
  unfold Dict.keys at h
  rw [List.getElem?_map] at h
  cases he : d.cols[j]? with
  | none => rw [he] at h; cases h
  | some e =>
    rw [he] at h
    simp only [Option.map_some, Option.some.injEq] at h
    subst h
    exact ⟨e.2, rfl, Dict.get_of_mem w.nodup (List.mem_of_getElem? he)⟩

/-- **C81 for `exact=True`**: for Datasets with columns, with the same names in the same order
and as many rows, it answers whether they have the same elements.  (Names and shapes are what it
does not look at.) -/
theorem exact_partial (eq : C → C → Bool) (nan : C → Bool) {a b : Ds C} (wa : WF a) (wb : WF b)
    (h0 : a.cols ≠ []) (hk : a.cols.keys = b.cols.keys) (hn : a.nrows = b.nrows) :
    equalsExact eq nan a b = true ↔ SameInOrder eq nan a.cols b.cols := by
  have hlen : a.cols.length = b.cols.length := by
    have := congrArg List.length hk
    simpa [Dict.keys] using this
  have hb : b.cols ≠ [] := by
    intro h; rw [h] at hlen; exact h0 (List.eq_nil_of_length_eq_zero hlen)
  rw [exact_tests eq nan wa wb]
  simp only [ne_eq, h0, hb, not_false_eq_true, true_and, hn, hlen, across, if_true, true_or]
  constructor
  · intro h
    refine ⟨hk, fun k => ?_⟩
    rw [sameCol_iff]
    refine ⟨?_, fun v w hv hw => ⟨?_, fun i x y hx hy => ?_⟩⟩
    · rw [col_eq_get, col_eq_get, Dict.get_eq_none_iff, Dict.get_eq_none_iff, hk]
    · rw [wa.get_len hv, wb.get_len hw, hn]
    · have hm : k ∈ a.cols.keys := by
        by_contra hc
        rw [col_eq_get, (Dict.get_eq_none_iff _ _).mpr hc] at hv; cases hv
      obtain ⟨j, hj⟩ := List.getElem?_of_mem hm
      obtain ⟨v', g1, g2⟩ := get_at wa hj
      obtain ⟨w', g3, g4⟩ := get_at wb (hk ▸ hj)
      rw [col_eq_get, g2] at hv
      rw [col_eq_get, g4] at hw
      obtain rfl := Option.some.inj hv
      obtain rfl := Option.some.inj hw
      have hi := (List.getElem?_eq_some_iff.mp hy).1
      rw [wb.get_len g4] at hi
      have := h i j hi (List.getElem?_eq_some_iff.mp g3).1 x x y
        (by simp [cellAt, g1, hx]) (by simp [cellAt, g1, hx]) (by simp [cellAt, g3, hy])
      exact this.symm
  · rintro ⟨-, h⟩ i j hi hj x x' y hx hx' hy
    rw [hx] at hx'
    obtain rfl := Option.some.inj hx'
    obtain ⟨k, hjk⟩ : ∃ k, b.cols.keys[j]? = some k :=
      ⟨_, List.getElem?_eq_getElem (by simpa [Dict.keys] using hj)⟩
    obtain ⟨v, g1, g2⟩ := get_at wa (hk ▸ hjk)
    obtain ⟨w, g3, g4⟩ := get_at wb hjk
    simp only [cellAt, g1, Option.bind_some] at hx
    simp only [cellAt, g3, Option.bind_some] at hy
    exact (((sameCol_iff.mp (h k)).2 v w g2 g4).2 i x y hx hy).symm

/-- Names are not looked at. -/
theorem exact_names_counterexample :
    let a : Ds (Option Nat) := { cols := [("x", [some 1])], nrows := 1 }
    let b : Ds (Option Nat) := { cols := [("y", [some 1])], nrows := 1 }
    equalsExact feq fnan a b = true := by decide +kernel

/-- A Dataset "exactly" equals its first column alone. -/
theorem exact_columns_counterexample :
    let a : Ds (Option Nat) := { cols := [("x", [some 1, some 2]), ("y", [some 7, some 8])], nrows := 2 }
    let b : Ds (Option Nat) := { cols := [("x", [some 1, some 2])], nrows := 2 }
    equalsExact feq fnan a b = true ∧ equalsExact feq fnan b a = false := by decide +kernel

/-- A Dataset of equal rows "exactly" equals one of them. -/
theorem exact_rows_counterexample :
    let a : Ds (Option Nat) := { cols := [("x", [some 1, some 1, some 1])], nrows := 3 }
    let b : Ds (Option Nat) := { cols := [("x", [some 1])], nrows := 1 }
    equalsExact feq fnan a b = true ∧ equalsExact feq fnan b a = false := by decide +kernel

/-- A Dataset without columns does not "exactly" equal itself. -/
theorem exact_empty_counterexample :
    equalsExact feq fnan { cols := [], nrows := 0 } { cols := [], nrows := 0 } = false := by
  decide +kernel

/-- Datasets that meet the hypotheses of `exact_partial` -/
example :
    let a : Ds (Option Nat) := { cols := [("x", [some 1, none]), ("y", [some 3, some 4])], nrows := 2 }
    let b : Ds (Option Nat) := { cols := [("x", [some 1, none]), ("y", [some 3, some 5])], nrows := 2 }
    WF a ∧ WF b ∧ a.cols ≠ [] ∧ a.cols.keys = b.cols.keys ∧ a.nrows = b.nrows
    ∧ equalsExact feq fnan a a = true ∧ equalsExact feq fnan a b = false := by
  refine ⟨⟨by decide, by simp, by simp⟩, ⟨by decide, by simp, by simp⟩, by simp, rfl, rfl,
    by decide +kernel, by decide +kernel⟩

end Verif.Equal
