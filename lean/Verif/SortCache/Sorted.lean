import Verif.SortCache.Props
/-!
# C47: `sort_view`, `sort_copy`, `sort_inplace` and copies of sorted Datasets
-/
namespace Verif.SortCache
open Verif.SortCache.Spec
variable {V C : Type}

/-- the keys asked for: each column with its direction; one direction may stand for all -/
def wanted (d : Ds V) (names : List Name) (ascending : List Bool) : List (V × Bool) :=
  (names.filterMap d.col?).zip (if ascending.length = 1 then List.replicate names.length (ascending.getD 0 true) else ascending)

/-- all columns have the number of rows of the Dataset -/
def Rect (size : V → Nat) (d : Ds V) : Prop := ∀ p ∈ d.cols, size p.2 = d.nrows

theorem filterMap_length {α β : Type} (f : α → Option β) : ∀ l : List α, (∀ a ∈ l, (f a).isSome) → (l.filterMap f).length = l.length
  | [], _ => rfl
  | a :: l, h => by
    obtain ⟨b, hb⟩ := Option.isSome_iff_exists.1 (h a (List.mem_cons_self ..))
    rw [List.filterMap_cons_some hb]
    simp [filterMap_length f l (fun x hx => h x (List.mem_cons_of_mem _ hx))]

theorem zip_reverse_eq {α β : Type} (a : List α) (b : List β) (h : a.length = b.length) :
    (a.reverse.zip b.reverse).reverse = a.zip b := by
  have := List.reverse_zipWith (f := Prod.mk) (l := a) (l' := b) h
  simp only [List.zip]
  rw [← this, List.reverse_reverse]

/-- the normalised direction, applied to the reversed keys, asks for exactly the wanted keys -/
theorem norm_wanted {d : Ds V} {names : List Name} {ascending : List Bool} {a : Asc}
    (h : normSort d (.many names) ascending = .ok a) :
    (∀ n ∈ names, (d.col? n).isSome) ∧
    (dirs (names.filterMap d.col?).reverse.length a).length = (names.filterMap d.col?).reverse.length ∧
    ((names.filterMap d.col?).reverse.zip (dirs (names.filterMap d.col?).reverse.length a)).reverse = wanted d names ascending := by
  unfold normSort at h
  split at h
  · simp at h
  · rename_i hall
    have hall : ∀ n ∈ names, (d.col? n).isSome := by
      simpa [By.names, List.all_eq_true, Option.isSome_iff_ne_none] using hall
    have hlen := filterMap_length d.col? names hall
    refine ⟨hall, ?_⟩
    split at h
    · rename_i b
      obtain rfl := Except.ok.inj h
      simp only [dirs, List.length_replicate, List.length_reverse, true_and]
      unfold wanted
      rw [← zip_reverse_eq _ _ (by simp [hlen])]
      simp [hlen]
    · rename_i _ hne
      split at h
      · simp at h
      · rename_i hl
        obtain rfl := Except.ok.inj h
        have hl : ascending.length = names.length := by simpa [By.len] using hl
        simp only [dirs, List.length_reverse, hl, hlen, true_and]
        rw [zip_reverse_eq _ _ (by rw [hlen, hl])]
        unfold wanted
        split
        · rename_i h1
          obtain ⟨b, hb⟩ := List.length_eq_one_iff.1 h1
          exact absurd hb (hne b)
        · rfl

/-- `sort_view(by, ascending)`: the order of the rows is a permutation of them in which, of any two rows, the first
sort column on which they differ decides, in the direction given for *that* column. -/
theorem sort_view_sorted {lib : Lib V C} {size : V → Nat} {val : V → Nat → Int} (hl : LexOK lib.lexsort size val)
    {d : Ds V} (hr : Rect size d) {names : List Name} (hn : names ≠ []) (hnd : names.Nodup) {ascending : List Bool} {d' : Ds V}
    (h : sortView d (.many names) ascending = .ok d') :
    ∃ idx, freshOrder lib d' = some idx ∧ idx.Perm (List.range d.nrows) ∧ idx.Pairwise (lexLE val (wanted d names ascending)) := by
  unfold sortView at h
  split at h
  · simp at h
  · rename_i a ha
    obtain rfl := Except.ok.inj h
    obtain ⟨hall, hlen, hw⟩ := norm_wanted ha
    have hcol : ∀ c : Ds V, c.cols = d.cols → c.col? = d.col? := fun c hc => col?_congr hc
    have hlen' := filterMap_length d.col? names hall
    have hne : names.filterMap d.col? ≠ [] := by
      intro h0; rw [h0] at hlen'; exact hn (List.length_eq_zero_iff.1 hlen'.symm)
    have hsz : ∀ k ∈ (names.filterMap d.col?).reverse, size k = d.nrows := by
      intro k hk
      rw [List.mem_reverse, List.mem_filterMap] at hk
      obtain ⟨n, _, hk⟩ := hk
      have := col?_mem hk
      rw [List.mem_map] at this
      obtain ⟨p, hp, rfl⟩ := this
      exact hr p hp
    refine ⟨lib.lexsort (names.filterMap d.col?).reverse a, ?_, ?_, ?_⟩
    · simp only [freshOrder, By.names]
      rw [← dictKeys_eraseDups, dictKeys_nodup_self names hnd,
        hcol ⟨d.uid, d.nrows, d.cols, some names, a, true⟩ rfl, mapM_filterMap _ _ hall]
      cases hf : names.filterMap d.col? with
      | nil => exact absurd hf hne
      | cons x l => rfl
    · exact hl.perm d.nrows _ a (by simpa using hne) hsz hlen
    · have := hl.sorted d.nrows _ a (by simpa using hne) hsz hlen
      rw [hw] at this
      exact this

theorem lexLE_congr {val : V → Nat → Int} {i j i' j' : Nat} : ∀ (ks ks' : List (V × Bool)),
    List.Forall₂ (fun k k' => k.2 = k'.2 ∧ val k'.1 i' = val k.1 i ∧ val k'.1 j' = val k.1 j) ks ks' →
    lexLE val ks i j → lexLE val ks' i' j'
  | [], _, h, _ => by cases h; trivial
  | (v, up) :: ks, _, h, hle => by
    cases h with
    | cons hk ht =>
      rename_i k' ks'
      obtain ⟨v', up'⟩ := k'
      dsimp only at hk
      obtain ⟨rfl, hi, hj⟩ := hk
      simp only [lexLE] at hle ⊢
      rw [hi, hj]
      rcases hle with h1 | ⟨h1, h2⟩
      · exact Or.inl h1
      · exact Or.inr ⟨h1, lexLE_congr ks ks' ht h2⟩

theorem col?_map (d : Ds V) (f : V → V) (cols' : List (Name × V)) (hc : cols' = d.cols.map fun p => (p.1, f p.2)) (c : Ds V)
    (h : c.cols = cols') (n : Name) : c.col? n = (d.col? n).map f := by
  unfold Ds.col?
  rw [h, hc]
  induction d.cols with
  | nil => rfl
  | cons p l ih =>
    rw [List.map_cons, List.find?_cons, List.find?_cons]
    by_cases hp : p.1 = n
    · simp [hp]
    · simpa [hp] using ih

theorem forall₂_zip_map {α β : Type} (R : α × β → α × β → Prop) (f : α → α) : ∀ (l : List α) (b : List β),
    (∀ x ∈ l, ∀ y ∈ b, R (x, y) (f x, y)) → List.Forall₂ R (l.zip b) ((l.map f).zip b)
  | [], _, _ => by simp
  | _ :: _, [], _ => by simp
  | x :: l, y :: b, h => by
    simp only [List.map_cons, List.zip_cons_cons]
    exact List.Forall₂.cons (h x (List.mem_cons_self ..) y (List.mem_cons_self ..))
      (forall₂_zip_map R f l b fun x hx y hy => h x (List.mem_cons_of_mem _ hx) y (List.mem_cons_of_mem _ hy))

/-- What sorting a Dataset should do: there is one reordering of the rows, applied to every column (rows stay
together), and the rows of the result are sorted. -/
def SortedFrom (size : V → Nat) (val : V → Nat → Int) (names : List Name) (ascending : List Bool) (d d' : Ds V) : Prop :=
  d'.cols.map (·.1) = d.cols.map (·.1) ∧ d'.nrows = d.nrows ∧ Rect size d' ∧
  (∃ idx : List Nat, idx.Perm (List.range d.nrows) ∧
    ∀ (n : Name) (v : V), d.col? n = some v → ∃ v', d'.col? n = some v' ∧ ∀ (p i : Nat), idx[p]? = some i → val v' p = val v i) ∧
  ∀ p q : Nat, p < q → q < d.nrows → lexLE val (wanted d' names ascending) p q

theorem sorted_core {lib : Lib V C} {size : V → Nat} {val : V → Nat → Int} (hl : LexOK lib.lexsort size val)
    {take : V → List Nat → V} (ht : TakeOK take size val) {d : Ds V} (hr : Rect size d) {names : List Name} (hn : names ≠ [])
    {ascending : List Bool} {a : Asc} (ha : normSort d (.many names) ascending = .ok a) (d' : Ds V)
    (hc : d'.cols = d.cols.map fun p => (p.1, take p.2 (lib.lexsort (names.filterMap d.col?).reverse a))) (hnr : d'.nrows = d.nrows) :
    SortedFrom size val names ascending d d' := by
  obtain ⟨hall, hlen, hw⟩ := norm_wanted ha
  have hlen' := filterMap_length d.col? names hall
  have hne : names.filterMap d.col? ≠ [] := by
    intro h0; rw [h0] at hlen'; exact hn (List.length_eq_zero_iff.1 hlen'.symm)
  have hsz : ∀ k ∈ (names.filterMap d.col?).reverse, size k = d.nrows := by
    intro k hk
    rw [List.mem_reverse, List.mem_filterMap] at hk
    obtain ⟨n, _, hk⟩ := hk
    have := col?_mem hk
    rw [List.mem_map] at this
    obtain ⟨p, hp, rfl⟩ := this
    exact hr p hp
  have hperm := hl.perm d.nrows _ a (by simpa using hne) hsz hlen
  have hsort := hl.sorted d.nrows _ a (by simpa using hne) hsz hlen
  rw [hw] at hsort
  generalize lib.lexsort (names.filterMap d.col?).reverse a = idx at *
  have hil : idx.length = d.nrows := by rw [hperm.length_eq, List.length_range]
  have hcol := col?_map d (fun v => take v idx) _ hc d' rfl
  refine ⟨by rw [hc]; simp, hnr, ?_, ⟨idx, hperm, ?_⟩, ?_⟩
  · intro p hp
    rw [hc, List.mem_map] at hp
    obtain ⟨p', _, rfl⟩ := hp
    rw [ht.size, hil, hnr]
  · intro n v hv
    refine ⟨take v idx, by rw [hcol, hv]; rfl, ht.val v idx⟩
  · intro p q hpq hq
    have hp' : p < idx.length := by omega
    have hq' : q < idx.length := by omega
    have hle := List.pairwise_iff_getElem.1 hsort p q hp' hq' hpq
    apply lexLE_congr (wanted d names ascending) _ ?_ hle
    have hfm : names.filterMap d'.col? = (names.filterMap d.col?).map fun v => take v idx := by
      rw [List.map_filterMap]
      congr 1
      funext n
      exact hcol n
    unfold wanted
    rw [hfm]
    apply forall₂_zip_map
    intro x _ y _
    refine ⟨rfl, ht.val x idx p _ (List.getElem?_eq_getElem hp'), ht.val x idx q _ (List.getElem?_eq_getElem hq')⟩

/-- `sort_inplace` reorders whole rows and leaves them sorted by the given columns and directions. -/
theorem sort_inplace_sorted {lib : Lib V C} {size : V → Nat} {val : V → Nat → Int} (hl : LexOK lib.lexsort size val)
    {take : V → List Nat → V} (ht : TakeOK take size val) {d : Ds V} (hr : Rect size d) {names : List Name} (hn : names ≠ [])
    {ascending : List Bool} {d' : Ds V} (h : sortInplace lib take d (.many names) ascending = .ok d') :
    SortedFrom size val names ascending d d' := by
  unfold sortInplace at h
  split at h
  · simp at h
  · rename_i a ha
    obtain rfl := Except.ok.inj h
    have hcols : (if d.display then sortsOff d else d).cols = d.cols := by split <;> rfl
    have hcol : (if d.display then sortsOff d else d).col? = d.col? := col?_congr hcols
    refine sorted_core hl ht hr hn ha _ ?_ ?_
    · simp only [sortLexsort, hcol, By.names, hcols]
    · dsimp only; split <;> rfl

/-- `sort_copy` returns a Dataset with the rows of the original reordered and sorted. -/
theorem sort_copy_sorted {lib : Lib V C} {size : V → Nat} {val : V → Nat → Int} (hl : LexOK lib.lexsort size val)
    {take : V → List Nat → V} (ht : TakeOK take size val) {d : Ds V} (hr : Rect size d) {uid : Nat} {names : List Name} (hn : names ≠ [])
    {ascending : List Bool} {d' : Ds V} (h : sortCopy lib take d uid (.many names) ascending = .ok d') :
    SortedFrom size val names ascending d d' := by
  unfold sortCopy at h
  split at h
  · simp at h
  · rename_i a ha
    obtain rfl := Except.ok.inj h
    exact sorted_core hl ht hr hn ha _ rfl rfl

/-- The sorts are refused exactly when a column is missing or the number of directions is neither one nor the number
of columns. -/
theorem sort_view_ok_iff (d : Ds V) (names : List Name) (ascending : List Bool) :
    (∃ d', sortView d (.many names) ascending = .ok d') ↔
      (∀ n ∈ names, (d.col? n).isSome) ∧ (ascending.length = 1 ∨ ascending.length = names.length) := by
  unfold sortView normSort
  by_cases hall : ∀ n ∈ names, (d.col? n).isSome
  · have h' : (By.many names).names.all (fun n => (d.col? n).isSome) = true := by
      rw [List.all_eq_true]; exact hall
    rw [h']
    simp only [Bool.not_true, Bool.false_eq_true, if_false, hall, implies_true, true_and]
    match ascending with
    | [b] => simpa using hall
    | [] => simp [By.len]; cases names <;> simp
    | a :: b :: l =>
      simp only [By.len, List.length_cons]
      by_cases hlen : l.length + 1 + 1 = names.length <;> simp [hlen]
      exact hall
  · have h' : (By.many names).names.all (fun n => (d.col? n).isSome) = false := by
      rw [Bool.eq_false_iff]; intro h; exact hall (List.all_eq_true.1 h)
    rw [h']
    simp only [Bool.not_false, if_true, hall, false_and, iff_false]
    simp

/-! ## Copies -/

/-- A copy that keeps all the sort columns of a sort with one direction per column has the same keys in the same
order and directions. -/
theorem copy_keeps_sort_partial (d ds : Ds V) (names : List Name) (l : List Bool) (hs : d.sortlist = some names) (hn : names ≠ [])
    (ha : d.asc = .arr l ∨ d.asc = .list l) (hlen : l.length = names.length) (hk : ∀ n ∈ names, (ds.col? n).isSome) :
    ∃ ds', copySort d ds = .ok ds' ∧ ds'.sortlist = some names ∧ ds'.asc = .list l := by
  have hf : ((names.zip l).filter fun p => (ds.col? p.1).isSome) = names.zip l := by
    rw [List.filter_eq_self]
    intro p hp
    exact hk p.1 (List.of_mem_zip hp).1
  have hpos : (names.zip l).length > 0 := by
    rw [List.length_zip, hlen, Nat.min_self]
    exact List.length_pos_iff.2 hn
  unfold copySort
  rw [hs]
  rcases ha with ha | ha <;> rw [ha] <;> dsimp only <;> rw [hf, if_pos hpos] <;>
    refine ⟨_, rfl, ?_, ?_⟩ <;> dsimp only
  · rw [List.map_fst_zip (by omega)]
  · rw [List.map_snd_zip (by omega)]
  · rw [List.map_fst_zip (by omega)]
  · rw [List.map_snd_zip (by omega)]

/-! ## A concrete library, examples and counterexamples -/

section Ref

def rVal (v : List Int) (i : Nat) : Int := v.getD i 0

instance lexDec : ∀ (ks : List (List Int × Bool)) (i j : Nat), Decidable (lexLE rVal ks i j)
  | [], _, _ => isTrue trivial
  | (v, up) :: ks, i, j => by
    unfold lexLE
    have := lexDec ks i j
    exact inferInstance

theorem lexLE_total (ks : List (List Int × Bool)) (i j : Nat) : lexLE rVal ks i j ∨ lexLE rVal ks j i := by
  induction ks with
  | nil => exact Or.inl trivial
  | cons k ks ih =>
    obtain ⟨v, up⟩ := k
    simp only [lexLE]
    cases up <;> simp only [Bool.false_eq_true, if_false, if_true] <;>
      rcases lt_trichotomy (rVal v i) (rVal v j) with h | h | h <;> rcases ih with ih | ih <;> simp [h, ih]

theorem lexLE_trans (ks : List (List Int × Bool)) (i j k : Nat) (h1 : lexLE rVal ks i j) (h2 : lexLE rVal ks j k) :
    lexLE rVal ks i k := by
  induction ks with
  | nil => trivial
  | cons q ks ih =>
    obtain ⟨v, up⟩ := q
    simp only [lexLE] at *
    cases up <;> simp only [Bool.false_eq_true, if_false, if_true] at * <;>
      rcases h1 with h1 | ⟨h1, h1'⟩ <;> rcases h2 with h2 | ⟨h2, h2'⟩
    all_goals first
      | exact Or.inl (by omega)
      | exact Or.inr ⟨by omega, ih h1' h2'⟩

/-- a reference `lexsort` on integer columns -/
def rLexsort (ks : List (List Int)) (a : Asc) : List Nat :=
  (List.range (ks.headD []).length).insertionSort fun i j => lexLE rVal (ks.zip (dirs ks.length a)).reverse i j

theorem rLex_ok : LexOK rLexsort List.length rVal where
  perm := by
    intro n ks a hne hsz _
    cases ks with
    | nil => exact absurd rfl hne
    | cons k ks =>
      have := hsz k (List.mem_cons_self ..)
      unfold rLexsort
      rw [List.headD_cons, this]
      exact List.perm_insertionSort _ _
  sorted := by
    intro n ks a _ _ _
    unfold rLexsort
    have : Std.Total (fun i j => lexLE rVal (ks.zip (dirs ks.length a)).reverse i j) := ⟨lexLE_total _⟩
    have : IsTrans Nat (fun i j => lexLE rVal (ks.zip (dirs ks.length a)).reverse i j) := ⟨lexLE_trans _⟩
    exact List.pairwise_insertionSort _ _

def rTake (v : List Int) (idx : List Nat) : List Int := idx.map (rVal v)

theorem rTake_ok : TakeOK rTake List.length rVal where
  size := by intro v idx; simp [rTake]
  val := by
    intro v idx p i h
    simp [rTake, rVal, h]

/-- checksum of the reference library: the contents themselves -/
def rLib : Lib (List Int) (List Int) := ⟨id, rLexsort, fun v => v.map Int.toNat⟩

theorem rLib_distinct (S : List (List Int)) : Distinct rLib S := fun _ _ _ _ h => h

def exDs : Ds (List Int) := ⟨7, 3, [("a", [2, 1, 2]), ("b", [5, 6, 4])], none, .bool true, false⟩

/-- the hypotheses of `sort_view_sorted` and `order_fresh_partial` are met by a session that sorts, displays, changes a
column and displays again -/
example : ∃ d' : Ds (List Int), sortView exDs (.many ["a", "b"]) [false, true] = .ok d' ∧ freshOrder rLib d' = some [2, 0, 1] :=
  ⟨⟨7, 3, [("a", [2, 1, 2]), ("b", [5, 6, 4])], some ["a", "b"], .arr [true, false], true⟩, by rfl, by decide⟩

example : Rect List.length exDs := by
  intro p hp
  simp only [exDs, List.mem_cons, List.not_mem_nil, or_false] at hp
  rcases hp with rfl | rfl <;> rfl

def exSorted (b : List Int) (a : Asc) : Ds (List Int) := ⟨7, 3, [("a", [2, 1, 2]), ("b", b)], some ["b"], a, true⟩

/-- the hypotheses of `order_fresh_partial` on a history with changes, a save and a load -/
example : let os := [.put 0 exDs, .save 0, .put 0 (exSorted [5, 6, 4] (.bool true)), .order 0, .load 0 1 8,
      .put 0 (exSorted [9, 6, 4] (.bool false)), .order 1]
    SavesUnsorted rLib start os ∧ ((run rLib start os).ds 1).isSome := by
  refine ⟨⟨by simp, ?_, by simp, by simp, by simp, by simp, by simp, trivial⟩, by decide⟩
  rintro h ⟨⟩ d hd
  have hd' : d = exDs := by simpa [step, World.setDs, start] using hd.symm
  subst hd'
  rfl

/-- A Dataset of the columns `a` = 2, 0, 1 and `b` = 6, 5, 4 is sorted by `b`, saved and loaded: the rows of the loaded Dataset are put in
the order 2, 0, 1, taken from the column `a`, instead of 2, 1, 0. -/
theorem load_sorted_counterexample : ∃ (os : List (Op (List Int))) (h : Nat) (d : Ds (List Int)),
    (run rLib start os).ds h = some d ∧ Distinct rLib (contents os) ∧ d.cols = [("a", [2, 0, 1]), ("b", [6, 5, 4])] ∧
    d.sortlist = some ["b"] ∧ (step rLib (run rLib start os) (.order h)).2 = some [2, 0, 1] ∧ freshOrder rLib d = some [2, 1, 0] :=
  ⟨[.put 0 ⟨7, 3, [("a", [2, 0, 1]), ("b", [6, 5, 4])], some ["b"], .bool true, true⟩, .save 0, .load 0 1 8], 1,
    ⟨8, 3, [("a", [2, 0, 1]), ("b", [6, 5, 4])], some ["b"], .bool true, false⟩, by rfl, rLib_distinct _, rfl, rfl, by decide, by decide⟩

/-- the hypotheses of `load_sorted_exact` -/
example : ((start : World (List Int) (List Int)).files ++ [(⟨3, [("a", [2, 0, 1]), ("b", [6, 5, 4])], some ["b"], some [2, 1, 0]⟩ :
    File (List Int))])[0]? = some ⟨3, [("a", [2, 0, 1]), ("b", [6, 5, 4])], some ["b"], some [2, 1, 0]⟩ ∧ (rLib.asRows [2, 0, 1]).length = 3 :=
  ⟨rfl, by decide⟩

/-- columns of bytes that are read as signed or unsigned numbers, sorted by value; the checksum sees only the bytes -/
def byteLib : Lib (Bool × List Nat) (List Nat) where
  crc := fun v => v.2
  lexsort := fun ks a => rLexsort (ks.map fun v => v.2.map fun x : Nat => if v.1 ∧ x ≥ 128 then (x : Int) - 256 else (x : Int)) a
  asRows := fun v => v.2

/-- Why the checksum has to tell contents of different types apart: replacing a column by one of another type with the same
bytes leaves the old order in the cache, if the checksum is computed from the bytes alone. -/
theorem dtype_blind_crc_counterexample : ∃ (os : List (Op (Bool × List Nat))) (d : Ds (Bool × List Nat)),
    (run byteLib start os).ds 0 = some d ∧ (step byteLib (run byteLib start os) (.order 0)).2 = some [1, 0] ∧
    freshOrder byteLib d = some [0, 1] :=
  ⟨[.put 0 ⟨7, 2, [("a", (true, [1, 255]))], some ["a"], .bool true, true⟩, .order 0,
    .put 0 ⟨7, 2, [("a", (false, [1, 255]))], some ["a"], .bool true, true⟩],
    ⟨7, 2, [("a", (false, [1, 255]))], some ["a"], .bool true, true⟩, by rfl, by decide, by decide⟩

/-- A Dataset on which `sort_view("a")` was called cannot be copied, sliced or subset (an attribute is misspelt). -/
theorem copy_after_sort_view_counterexample : ∃ d : Ds (List Int), sortView exDs (.one "a") [true] = .ok d ∧
    copySort d ⟨8, 3, d.cols, none, .bool true, false⟩ = .error "AttributeError: sort_ascending" :=
  ⟨⟨7, 3, [("a", [2, 1, 2]), ("b", [5, 6, 4])], some ["a"], .bool true, true⟩, by rfl, by rfl⟩

/-- Taking a subset of the columns pairs the sort columns with the wrong directions: the rows were sorted by `a`
ascending then `b` descending, the subset is sorted by `a` descending. -/
theorem subset_directions_counterexample : ∃ (d : Ds (List Int)) (ds ds' : Ds (List Int)),
    sortView ⟨7, 2, [("a", [1, 2]), ("b", [3, 4]), ("c", [0, 0])], none, .bool true, false⟩ (.many ["a", "b", "c"]) [true, false, false] = .ok d ∧
    freshOrder rLib d = some [0, 1] ∧ ds = ⟨8, 2, [("a", [1, 2]), ("b", [3, 4])], none, .bool true, false⟩ ∧
    copySort d ds = .ok ds' ∧ freshOrder rLib ds' = some [1, 0] :=
  ⟨⟨7, 2, [("a", [1, 2]), ("b", [3, 4]), ("c", [0, 0])], some ["a", "b", "c"], .arr [false, false, true], true⟩,
   ⟨8, 2, [("a", [1, 2]), ("b", [3, 4])], none, .bool true, false⟩,
   ⟨8, 2, [("a", [1, 2]), ("b", [3, 4])], some ["a", "b"], .list [false, false], true⟩, by rfl, by decide, by rfl, by rfl, by decide⟩

end Ref
end Verif.SortCache
