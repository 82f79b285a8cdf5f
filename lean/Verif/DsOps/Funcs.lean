import Verif.DsOps.Assign

/-!
# Functions applied to a Dataset, and matrices
-/

namespace Verif.DsOps

variable {V A : Type}

/-- The entry of a name. -/
def find {C : Type} (name : String) (es : List (String × C)) : Option C := (es.find? fun (e : String × C) => e.1 == name).map Prod.snd

theorem find_put {C : Type} (name : String) (c : C) (es : List (String × C)) (k : String) :
    find k (put name c es) = if k = name then some c else find k es := by
  induction es with
  | nil =>
    by_cases h : k = name
    · simp [find, put, h]
    · have : ¬ name = k := fun e => h e.symm
      simp [find, put, h, this]
  | cons e es ih =>
    unfold put
    by_cases he : e.1 = name
    · rw [if_pos he]
      by_cases h : k = name
      · simp [find, h]
      · have h1 : ¬ name = k := fun e => h e.symm
        have h2 : ¬ e.1 = k := fun e' => h (e' ▸ he)
        simp [find, h, h1, h2]
    · rw [if_neg he]
      by_cases hk : e.1 = k
      · have h : ¬ k = name := fun e' => he (hk.trans e')
        simp [find, hk, h]
      · have : find k (e :: put name c es) = find k (put name c es) := by simp [find, hk]
        rw [this, ih]
        have h' : find k (e :: es) = find k es := by simp [find, hk]
        rw [h']

theorem find_foldl {α C : Type} (key : α → String) (val : α → C) (xs : List α) (r : List (String × C)) (k : String) :
    find k (xs.foldl (fun (r : List (String × C)) (x : α) => put (key x) (val x) r) r) =
      (((xs.filter fun (x : α) => key x == k).getLast?).map val).or (find k r) := by
  induction xs generalizing r with
  | nil => rfl
  | cons x xs ih =>
    rw [List.foldl_cons, ih, find_put, List.filter_cons]
    by_cases h : key x = k
    · subst h
      rw [if_pos rfl, if_pos (by simp)]
      cases hl : xs.filter fun (y : α) => key y == key x with
      | nil => simp
      | cons g gs => simp [List.getLast?_cons]
    · have h' : ¬ k = key x := fun e => h e.symm
      rw [if_neg h', if_neg (by simpa using h)]

theorem filter_single {α : Type} (key : α → String) (xs : List α) (hd : (xs.map key).Nodup) (x : α) (hx : x ∈ xs) :
    (xs.filter fun (y : α) => key y == key x) = [x] := by
  induction xs with
  | nil => cases hx
  | cons g gs ih =>
    rw [List.map_cons, List.nodup_cons] at hd
    rcases List.mem_cons.1 hx with rfl | hm
    · rw [List.filter_cons_of_pos (by simp)]
      congr 1
      rw [List.filter_eq_nil_iff]
      intro y hy
      simpa using fun e : key y = key x => hd.1 (List.mem_map.2 ⟨y, hy, e⟩)
    · have : ¬ key g = key x := fun e => hd.1 (List.mem_map.2 ⟨x, hm, e.symm⟩)
      rw [List.filter_cons_of_neg (by simpa using this)]
      exact ih hd.2 hm

/-- Part of: `apply` gives each column changed by the function. Proved for functions whose name is not a method of the Dataset that
can be called, or with `check_op=False`. -/
theorem apply_partial (checkOp : Bool) (methods : String → Option (List (String × List V))) (cols : List (String × List V))
    (f : Fn V A) (a : A) (h : checkOp = false ∨ methods f.name = none) :
    apply1 checkOp methods cols f a = cols.map fun (c : String × List V) => (c.1, f.call a c.2) := by
  unfold apply1
  rcases h with h | h <;> simp [h]

/-- Otherwise the function and its arguments do not matter: the method of its name is the result. -/
theorem apply_method (methods : String → Option (List (String × List V))) (cols r : List (String × List V))
    (f : Fn V A) (a : A) (h : methods f.name = some r) : apply1 true methods cols f a = r := by
  simp [apply1, h]

/-- The code violates it: a user's function called `sum` is not called; the sum of the columns is returned. -/
theorem apply_counterexample :
    apply1 true (fun s => if s = "sum" then some [("a", [6])] else none) [("a", [1, 2, 3])]
      (⟨"sum", fun (k : Int) xs => xs.map (· + k)⟩ : Fn Int Int) 10 = [("a", [6])] ∧
    [("a", [1, 2, 3])].map (fun (c : String × List Int) => (c.1, c.2.map (· + 10))) = [("a", [11, 12, 13])] := by decide +kernel

/-- What a list of functions gives: under each capitalized name the result of the last function of that name. -/
theorem applyAll_exact (cap : String → String) (checkOp : Bool) (methods : String → Option (List (String × List V)))
    (cols : List (String × List V)) (fs : List (Fn V A)) (a : A) (k : String) :
    find k (applyAll cap checkOp methods cols fs a) =
      ((fs.filter fun (f : Fn V A) => cap f.name == k).getLast?).map fun (f : Fn V A) => apply1 checkOp methods cols f a := by
  unfold applyAll
  rw [find_foldl (fun (f : Fn V A) => cap f.name) (fun (f : Fn V A) => apply1 checkOp methods cols f a)]
  simp [find]

/-- Part of: a list of functions gives the result of each. Proved for functions with different capitalized names. -/
theorem applyAll_partial (cap : String → String) (checkOp : Bool) (methods : String → Option (List (String × List V)))
    (cols : List (String × List V)) (fs : List (Fn V A)) (a : A) (hd : (fs.map fun (f : Fn V A) => cap f.name).Nodup)
    (f : Fn V A) (hf : f ∈ fs) : find (cap f.name) (applyAll cap checkOp methods cols fs a) = some (apply1 checkOp methods cols f a) := by
  rw [applyAll_exact]
  rw [filter_single (fun (f : Fn V A) => cap f.name) fs hd f hf]
  rfl

example : (([⟨"f", fun (_ : Unit) xs => xs⟩, ⟨"g", fun _ xs => xs.map (· + 1)⟩] : List (Fn Int Unit)).map
    fun (f : Fn Int Unit) => id f.name).Nodup := by decide

/-- The code violates it: of two functions without a name of their own only the last one is left. -/
theorem applyAll_counterexample :
    applyAll id true (fun _ => none) [("a", [1, 2])]
      ([⟨"<lambda>", fun (_ : Unit) xs => xs.map (· + 1)⟩, ⟨"<lambda>", fun _ xs => xs.map (· * 2)⟩] : List (Fn Int Unit)) () =
      [("<lambda>", [("a", [2, 4])])] := by decide +kernel

/-! ### imatrix_y -/

/-- Row results of a function on a matrix. -/
def rowResults (n : Nat) (matrix : List (String × List V)) (g : List V → V) : List V := (List.range n).map fun (i : Nat) => g (row matrix i)

theorem imatrixY_find (cap : String → String) (n : Nat) (matrix : List (String × List V)) (fs : List (String × (List V → V)))
    (names : List String) (cols : List (String × List V)) (k : String) :
    find k (imatrixY cap n matrix fs (some names) cols) =
      ((((fs.zip names).map fun (p : (String × (List V → V)) × String) => (p.2, p.1.2)).filter
        fun (p : String × (List V → V)) => p.1 == k).getLast?.map fun (p : String × (List V → V)) => rowResults n matrix p.2).or
        (find k cols) := by
  simp only [imatrixY, setCol_eq]
  exact find_foldl (fun (p : String × (List V → V)) => p.1) (fun (p : String × (List V → V)) => rowResults n matrix p.2) _ cols k

/-- Part of: `imatrix_y` adds the row results of every function under its name. Proved for as many names as functions, all
different; every other column stays. -/
theorem imatrixY_partial (cap : String → String) (n : Nat) (matrix : List (String × List V)) (fs : List (String × (List V → V)))
    (names : List String) (hl : names.length = fs.length) (hd : names.Nodup) (cols : List (String × List V)) :
    (∀ (j : Nat) (f : String × (List V → V)) (nm : String), fs[j]? = some f → names[j]? = some nm →
      find nm (imatrixY cap n matrix fs (some names) cols) = some (rowResults n matrix f.2)) ∧
    (∀ k, k ∉ names → find k (imatrixY cap n matrix fs (some names) cols) = find k cols) := by
  have hkey : ((fs.zip names).map fun (p : (String × (List V → V)) × String) => (p.2, p.1.2)).map Prod.fst = names := by
    rw [List.map_map]
    have : (Prod.fst ∘ fun (p : (String × (List V → V)) × String) => (p.2, p.1.2)) = Prod.snd := rfl
    rw [this, List.map_snd_zip (by omega)]
  constructor
  · intro j f nm hf hn
    rw [imatrixY_find]
    have hj : (nm, f.2) ∈ (fs.zip names).map fun (p : (String × (List V → V)) × String) => (p.2, p.1.2) := by
      refine List.mem_map.2 ⟨(f, nm), List.mem_of_getElem? (i := j) ?_, rfl⟩
      exact List.getElem?_zip_eq_some.2 ⟨hf, hn⟩
    rw [filter_single (fun (p : String × (List V → V)) => p.1) _ (by rw [hkey]; exact hd) _ hj]
    rfl
  · intro k hk
    rw [imatrixY_find]
    have : (((fs.zip names).map fun (p : (String × (List V → V)) × String) => (p.2, p.1.2)).filter
        fun (p : String × (List V → V)) => p.1 == k) = [] := by
      rw [List.filter_eq_nil_iff]
      intro p hp
      have : p.1 ∈ names := hkey ▸ List.mem_map.2 ⟨p, hp, rfl⟩
      simpa using fun e : p.1 = k => hk (e ▸ this)
    rw [this]
    rfl

example : imatrixY id 2 [("a", [1, 2]), ("b", [3, 4])] [("sum", fun (xs : List Int) => xs.foldl (· + ·) 0)] (some ["T"]) [("a", [1, 2])] =
    [("a", [1, 2]), ("T", [4, 6])] := by decide +kernel

/-- The code violates it: of two functions with one name only the first is computed, without an exception. -/
theorem imatrixY_counterexample :
    imatrixY id 2 [("a", [1, 2]), ("b", [3, 4])]
      [("sum", fun (xs : List Int) => xs.foldl (· + ·) 0), ("prod", fun (xs : List Int) => xs.foldl (· * ·) 1)] (some ["T"]) [] =
      [("T", [4, 6])] := by decide +kernel

/-! ### add_matrix -/

theorem addMatrix_cols (ok : List V → Bool) (hok : ∀ xs, ok xs = true) (n : Nat) (cs : List (List V)) (names : List String)
    (hl : names.length = cs.length) (hc : ∀ c ∈ cs, c.length = n) (d : Ds V) (hn : d.nrows = some n) :
    addMatrix ok d cs names = (⟨some n, (names.zip cs).foldl (fun (r : List (String × List V)) (p : String × List V) =>
      put p.1 p.2 r) d.cols⟩, none) := by
  induction cs generalizing names d with
  | nil => cases names with
    | nil => cases d; simp only at hn; subst hn; rfl
    | cons _ _ => simp at hl
  | cons c cs ih => cases names with
    | nil => simp at hl
    | cons nm ns =>
      have h1 : assign ok d nm (.array c) = ({ d with cols := put nm c d.cols }, none) :=
        addCol_of ok d nm c n hn (hc c List.mem_cons_self) (hok c)
      simp only [addMatrix, h1]
      exact ih ns (by simpa using hl) (fun c hc' => hc c (List.mem_cons_of_mem _ hc')) { d with cols := put nm c d.cols } hn

/-- `add_matrix` with different names: column `j` of the matrix is the column of the `j`-th name, all other columns stay. -/
theorem addMatrix_partial (ok : List V → Bool) (hok : ∀ xs, ok xs = true) (n : Nat) (cs : List (List V)) (names : List String)
    (hl : names.length = cs.length) (hd : names.Nodup) (hc : ∀ c ∈ cs, c.length = n) (d : Ds V) (hn : d.nrows = some n) :
    (addMatrix ok d cs names).2 = none ∧
    (∀ (j : Nat) (c : List V) (nm : String), cs[j]? = some c → names[j]? = some nm → find nm (addMatrix ok d cs names).1.cols = some c) ∧
    (∀ k, k ∉ names → find k (addMatrix ok d cs names).1.cols = find k d.cols) := by
  rw [addMatrix_cols ok hok n cs names hl hc d hn]
  have hkey : (names.zip cs).map Prod.fst = names := List.map_fst_zip (by omega)
  have hF (k : String) := find_foldl (fun (p : String × List V) => p.1) (fun (p : String × List V) => p.2) (names.zip cs) d.cols k
  refine ⟨rfl, fun j c nm hcj hnj => ?_, fun k hk => ?_⟩
  · simp only
    rw [hF]
    have hj : (nm, c) ∈ names.zip cs := List.mem_of_getElem? (List.getElem?_zip_eq_some.2 ⟨hnj, hcj⟩)
    rw [filter_single (fun (p : String × List V) => p.1) _ (by rw [hkey]; exact hd) _ hj]
    rfl
  · simp only
    rw [hF]
    have : ((names.zip cs).filter fun (p : String × List V) => p.1 == k) = [] := by
      rw [List.filter_eq_nil_iff]
      intro p hp
      have : p.1 ∈ names := hkey ▸ List.mem_map.2 ⟨p, hp, rfl⟩
      simpa using fun e : p.1 = k => hk (e ▸ this)
    rw [this]
    rfl

example : (addMatrix (fun _ => true) ({ nrows := some 2, cols := [("a", [1, 2])] } : Ds Int) [[3, 4], [5, 6]] ["b", "a"]).1.cols =
    [("a", [5, 6]), ("b", [3, 4])] := by decide +kernel

/-- The code violates it for repeated names: the earlier column of the matrix is lost. -/
theorem addMatrix_counterexample :
    addMatrix (fun _ => true) (empty : Ds Int) [[3, 4], [5, 6]] ["b", "b"] =
      ({ nrows := some 2, cols := [("b", [5, 6])] }, none) := by decide +kernel

/-- A matrix of another number of rows (and not of one row) is refused, and the Dataset stays as it was. -/
theorem addMatrix_refused (ok : List V → Bool) (hok : ∀ xs, ok xs = true) (n : Nat) (c : List V) (cs : List (List V)) (nm : String)
    (names : List String) (hc : c.length ≠ n) (h1 : c.length ≠ 1) (d : Ds V) (hn : d.nrows = some n) :
    addMatrix ok d (c :: cs) (nm :: names) = (d, some .rows) := by
  have : assign ok d nm (.array c) = (d, some .rows) := by
    simp only [assign, addCol, hok, Bool.true_eq_false, if_false, hn]
    rw [if_neg (fun h => h1 h.1), if_neg hc]
  simp only [addMatrix, this]

example : addMatrix (fun _ => true) ({ nrows := some 3, cols := [("a", [1, 2, 3])] } : Ds Int) [[3, 4], [5, 6]] ["b", "c"] =
    ({ nrows := some 3, cols := [("a", [1, 2, 3])] }, some .rows) := by decide +kernel

end Verif.DsOps
