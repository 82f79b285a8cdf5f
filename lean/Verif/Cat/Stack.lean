import Verif.Cat.Filtered
import Verif.Cat.Mapping
/-!
# C27: stacking Categoricals

`_hstack_categorical` (`rt_hstack.py:597-730`) stacks codes and categories, `merge_cats` (`rt_grouping.py:136-274`) tests
whether all categories are equal and otherwise calls `hstack_groupings` (`:277-414`).  The label type is arbitrary: a label
is the tuple of the keys of a multi-key Categorical.

Modelled: the Python path of `hstack_groupings` (`:381-407`).  Its C++ counterpart `rc.ReIndexGroups` (`:379`) is not in the
repository.  Simplified: the new codes are unbounded integers (`int_dtype_from_len` chooses the width by the number of
categories).
-/
namespace Verif.Cat
variable {L : Type} [DecidableEq L]

/-- what `groupbyhash`/`groupbylex` return: 1-based group of every item, position of the first item of every group -/
structure Grp where
  iKey : List Nat
  iFirst : List Nat
deriving DecidableEq

/-- contract of the grouping functions: the items at `iFirst` are distinct, and every item equals the one of its group -/
structure GroupOK (g : List L → Grp) : Prop where
  len : ∀ u, (g u).iKey.length = u.length
  first : ∀ u, ∀ p ∈ (g u).iFirst, p < u.length
  distinct : ∀ u, ((g u).iFirst.map fun p => u[p]?).Nodup
  key : ∀ u (i : Nat) (x : L), u[i]? = some x → ∃ m p : Nat, (g u).iKey[i]? = some (m + 1) ∧ (g u).iFirst[m]? = some p ∧ u[p]? = some x

/-- stacked array: its parts one after the other -/
def cumsum : Nat → List Nat → List Nat
  | _, [] => []
  | a, n :: ns => (a + n) :: cumsum (a + n) ns

/-- `a[s:t]` -/
def slice {α : Type} (a : List α) (s t : Nat) : List α := (a.take t).drop s

/-- `a[s:s+len(v)] = v` -/
def sliceWrite {α : Type} (a : List α) (s : Nat) (v : List α) : List α := a.take s ++ v ++ a.drop (s + v.length)

/-- `uikey_slice[k]` for a FastArray: fancy indices count from the end when negative, and out of range they read the invalid
integer instead of raising (`rt_fastarray.py:1322-1326` calls `rc.MBGet`, see `rt_utils.py:631-700`) -/
def mbInt (a : List Int) (k : Int) : Int := (npGet a k).getD (-2147483648)

/-- body of the loop `:394-404`: new codes of one slice -/
def fixSlice (base : Nat) (uslice : List Int) (old : List Int) : List Int :=
  if base = 1 then
    List.zipWith (fun (k v : Int) => if k = 0 then 0 else v) old (old.map fun k => mbInt uslice (k - 1))
  else old.map fun k => mbInt uslice k

/-- `for i in range(len(u_cutoffs))` (`:386-407`); state: `start`, `starti`, `newikey` -/
def reindexLoop (base : Nat) (uikey ikey : List Int) : List (Nat × Nat) → Nat × Nat × List Int → Nat × Nat × List Int
  | [], st => st
  | (stop, stopi) :: rest, (start, starti, new) =>
    reindexLoop base uikey ikey rest (stop, stopi, sliceWrite new starti (fixSlice base (slice uikey start stop) (slice ikey starti stopi)))

/-- `hstack_groupings` (`rt_grouping.py:277-414`); `buf` is the content of `empty(len(ikey))` -/
def hstackGroupings (g : List L → Grp) (base : Nat) (ikey : List Int) (uniques : List L) (icut ucut : List Nat) (buf : List Int) :
    Option (List Int × List L) :=
  if icut.length = 1 then some (ikey, uniques)
  else
    let gr := g uniques
    let uikey : List Int := gr.iKey.map fun k : Nat => if base = 0 then (k : Int) - 1 else (k : Int)
    some ((reindexLoop base uikey ikey (ucut.zip icut) (0, 0, buf)).2.2, gr.iFirst.filterMap fun p => uniques[p]?)

/-- the slices of the stacked categories (`:181-193`) -/
def slices {α : Type} (a : List α) : Nat → List Nat → List (List α)
  | _, [] => []
  | s, t :: ts => slice a s t :: slices a t ts

/-- `crc_match` (`rt_utils.py:1139-1169`): one pair of length and checksum -/
def crcMatch (crc : List L → Nat) : List (List L) → Bool
  | [] => false
  | x :: xs => xs.all fun y => x.length = y.length ∧ crc x = crc y

/-- `merge_cats` (`:136-274`) as called by `_hstack_categorical` for array categories -/
def mergeCats (crc : List L → Nat) (g : List L → Grp) (base : Nat) (indices : List Int) (cats : List L) (icut ucut : List Nat)
    (buf : List Int) : Option (List Int × List L) :=
  let old := slices cats 0 ucut
  if old.length > 1 ∧ crcMatch crc old = false then hstackGroupings g base indices cats icut ucut buf
  else some (indices, old.headD [])

/-- the codes and categories of a Categorical -/
structure Part (L : Type) where
  codes : List Int
  labels : List L

/-- `_hstack_categorical` (`rt_hstack.py:597-730`) for array categories of the same base index -/
def hstackCats (crc : List L → Nat) (g : List L → Grp) (base : Nat) (cats : List (Part L)) (buf : List Int) : Option (List Int × List L) :=
  mergeCats crc g base (cats.flatMap (·.codes)) (cats.flatMap (·.labels)) (cumsum 0 (cats.map (·.codes.length)))
    (cumsum 0 (cats.map (·.labels.length))) buf

/-! ## Specification -/

/-- labels of the rows of a part -/
def Part.rows (base : Nat) (p : Part L) : List (Option L) := p.codes.map (label? base p.labels)

/-- codes of filtered rows (base 1) or categories; categories are distinct -/
structure Part.WF (base : Nat) (p : Part L) : Prop where
  nodup : p.labels.Nodup
  lo : ∀ k ∈ p.codes, 0 ≤ k
  hi : ∀ k ∈ p.codes, k < (base : Int) + p.labels.length

/-! ## Proofs -/

theorem fixSlice_spec {base : Nat} (hb : base ≤ 1) {us : List Int} {ls newU : List L}
    (hus : ∀ (j : Nat) (l : L), ls[j]? = some l → ∃ m : Nat, us[j]? = some ((m : Int) + base) ∧ newU[m]? = some l)
    {codes : List Int} (hlo : ∀ k ∈ codes, 0 ≤ k) (hhi : ∀ k ∈ codes, k < (base : Int) + ls.length) :
    (fixSlice base us codes).length = codes.length ∧
      (fixSlice base us codes).map (label? base newU) = codes.map (label? base ls) ∧
      ∀ k ∈ fixSlice base us codes, 0 ≤ k ∧ k < (base : Int) + newU.length := by
  -- the new code of one old code
  have hone : ∀ k ∈ codes, (base : Int) ≤ k → ∃ m : Nat, mbInt us (k - base) = (m : Int) + base ∧
      newU[m]? = label? base ls k ∧ m < newU.length := by
    intro k hk hbk
    have h1 := hhi k hk
    have hlt : (k - (base : Int)).toNat < ls.length := by omega
    obtain ⟨m, hm1, hm2⟩ := hus _ _ (List.getElem?_eq_getElem hlt)
    refine ⟨m, ?_, ?_, (List.getElem?_eq_some_iff.1 hm2).1⟩
    · unfold mbInt npGet; rw [if_pos (by omega), hm1]; rfl
    · unfold label?; rw [if_neg (by omega), hm2, List.getElem?_eq_getElem hlt]
  have hlab : ∀ m : Nat, label? base newU ((m : Int) + base) = newU[m]? := by
    intro m; unfold label?; rw [if_neg (by omega)]; congr 1; omega
  unfold fixSlice
  by_cases h1 : base = 1
  · rw [if_pos h1]
    subst h1
    rw [List.zipWith_map_right, List.zipWith_self]
    refine ⟨by simp, ?_, ?_⟩
    · rw [List.map_map]
      refine List.map_congr_left fun k hk => ?_
      simp only [Function.comp]
      by_cases hk0 : k = 0
      · rw [if_pos hk0, hk0]; simp [label?]
      · have h0 := hlo k hk
        obtain ⟨m, hm, hm2, _⟩ := hone k hk (by omega)
        rw [if_neg hk0]
        rw [show (k - ((1 : Nat) : Int)) = k - 1 by rfl] at hm
        rw [hm, hlab m, hm2]
    · intro x hx
      obtain ⟨k, hk, rfl⟩ := List.mem_map.1 hx
      by_cases hk0 : k = 0
      · rw [if_pos hk0]; omega
      · have h0 := hlo k hk
        obtain ⟨m, hm, _, hm3⟩ := hone k hk (by omega)
        rw [if_neg hk0]
        rw [show (k - ((1 : Nat) : Int)) = k - 1 by rfl] at hm
        rw [hm]; omega
  · rw [if_neg h1]
    have h0 : base = 0 := by omega
    subst h0
    refine ⟨by simp, ?_, ?_⟩
    · rw [List.map_map]
      refine List.map_congr_left fun k hk => ?_
      simp only [Function.comp]
      obtain ⟨m, hm, hm2, _⟩ := hone k hk (by simpa using hlo k hk)
      rw [show (k - ((0 : Nat) : Int)) = k by omega] at hm
      rw [hm, hlab m, hm2]
    · intro x hx
      obtain ⟨k, hk, rfl⟩ := List.mem_map.1 hx
      obtain ⟨m, hm, _, hm3⟩ := hone k hk (by simpa using hlo k hk)
      rw [show (k - ((0 : Nat) : Int)) = k by omega] at hm
      rw [hm]; omega

theorem slice_append {α : Type} (a b c : List α) : slice (a ++ b ++ c) a.length (a.length + b.length) = b := by
  unfold slice
  rw [show a.length + b.length = (a ++ b).length by simp, List.take_left, List.drop_left]

theorem slices_flatMap {α β : Type} (f : β → List α) (cats : List β) (pre : List α) :
    slices (pre ++ cats.flatMap f) pre.length (cumsum pre.length (cats.map fun c => (f c).length)) = cats.map f := by
  induction cats generalizing pre with
  | nil => rfl
  | cons c cs ih =>
    simp only [List.map_cons, cumsum, slices, List.flatMap_cons]
    congr 1
    · rw [← List.append_assoc]; exact slice_append pre (f c) _
    · have := ih (pre ++ f c)
      rw [List.length_append] at this
      rw [← List.append_assoc]
      exact this

/-- the loop, from any position on -/
theorem reindexLoop_spec {base : Nat} (hb : base ≤ 1) (newU : List L) (cats : List (Part L)) (preU : List Int) (preI : List Int)
    (usOf : List (List Int)) (hul : usOf.length = cats.length)
    (hus : ∀ (i : Nat) (c : Part L) (us : List Int), cats[i]? = some c → usOf[i]? = some us → us.length = c.labels.length ∧
      ∀ (j : Nat) (l : L), c.labels[j]? = some l → ∃ m : Nat, us[j]? = some ((m : Int) + base) ∧ newU[m]? = some l)
    (hwf : ∀ c ∈ cats, c.WF base)
    (done buf : List Int) (hd : done.length = preI.length) (hbuf : buf.length = (cats.flatMap (·.codes)).length) :
    ∃ (st : Nat × Nat) (out : List Int), reindexLoop base (preU ++ usOf.flatten) (preI ++ cats.flatMap (·.codes))
        ((cumsum preU.length (cats.map (·.labels.length))).zip (cumsum preI.length (cats.map (·.codes.length))))
        (preU.length, preI.length, done ++ buf) = (st.1, st.2, done ++ out) ∧
      out.map (label? base newU) = cats.flatMap (·.rows base) ∧ ∀ k ∈ out, 0 ≤ k ∧ k < (base : Int) + newU.length := by
  induction cats generalizing preU preI usOf done buf with
  | nil =>
    refine ⟨(preU.length, preI.length), [], ?_, rfl, by simp⟩
    have : buf = [] := List.length_eq_zero_iff.1 (by simpa using hbuf)
    simp [cumsum, reindexLoop, this]
  | cons c cs ih =>
    cases usOf with
    | nil => simp at hul
    | cons us uss =>
      obtain ⟨hul1, hu1⟩ := hus 0 c us rfl rfl
      have hw := hwf c (by simp)
      obtain ⟨hvl, hvr, hvb⟩ := fixSlice_spec hb hu1 hw.lo hw.hi
      simp only [List.map_cons, cumsum, List.zip_cons_cons, reindexLoop, List.flatten_cons, List.flatMap_cons]
      have hs1 : slice (preU ++ (us ++ uss.flatten)) preU.length (preU.length + c.labels.length) = us := by
        rw [← List.append_assoc, ← hul1]; exact slice_append preU us _
      have hs2 : slice (preI ++ (c.codes ++ cs.flatMap (·.codes))) preI.length (preI.length + c.codes.length) = c.codes := by
        rw [← List.append_assoc]; exact slice_append preI c.codes _
      rw [hs1, hs2]
      generalize fixSlice base us c.codes = v at hvl hvr hvb ⊢
      have hbl : buf.length = c.codes.length + (cs.flatMap (·.codes)).length := by
        rw [hbuf, List.flatMap_cons, List.length_append]
      have hwr : sliceWrite (done ++ buf) preI.length v = (done ++ v) ++ buf.drop v.length := by
        unfold sliceWrite
        rw [← hd, List.take_left, List.drop_append]
        simp
      rw [hwr]
      have hih := ih (preU ++ us) (preI ++ c.codes) uss (by simpa using hul)
        (fun i c' us' h1 h2 => hus (i + 1) c' us' (by simpa using h1) (by simpa using h2))
        (fun c' hc' => hwf c' (List.mem_cons_of_mem _ hc')) (done ++ v) (buf.drop v.length)
        (by simp [hd, hvl]) (by rw [List.length_drop, hvl]; omega)
      obtain ⟨st, out, h1, h2, h3⟩ := hih
      refine ⟨st, v ++ out, ?_, ?_, ?_⟩
      · rw [List.length_append, List.length_append, hul1] at h1
        rw [← List.append_assoc, ← List.append_assoc, h1]
        simp
      · rw [List.map_append, hvr, h2]; rfl
      · intro k hk
        rcases List.mem_append.1 hk with h | h
        · exact hvb k h
        · exact h3 k h

theorem cumsum_length (a : Nat) (l : List Nat) : (cumsum a l).length = l.length := by
  induction l generalizing a with
  | nil => rfl
  | cons n ns ih => simp [cumsum, ih]

/-- cut a list into pieces of given lengths -/
def cut {α : Type} : List α → List Nat → List (List α)
  | _, [] => []
  | a, n :: ns => a.take n :: cut (a.drop n) ns

theorem cut_flatten {α : Type} (a : List α) (ns : List Nat) (h : ns.sum = a.length) : (cut a ns).flatten = a := by
  induction ns generalizing a with
  | nil =>
    have : a = [] := List.length_eq_zero_iff.1 (by simpa using h.symm)
    simp [cut, this]
  | cons n ns ih =>
    rw [List.sum_cons] at h
    simp only [cut, List.flatten_cons]
    rw [ih _ (by rw [List.length_drop]; omega), List.take_append_drop]

theorem cut_length {α : Type} (a : List α) (ns : List Nat) : (cut a ns).length = ns.length := by
  induction ns generalizing a with
  | nil => rfl
  | cons n ns ih => simp [cut, ih]

/-- pieces of the group keys of the stacked categories -/
theorem cut_uikey {base : Nat} (newU : List L) (cats : List (Part L)) (uikey : List Int)
    (hl : uikey.length = (cats.flatMap (·.labels)).length)
    (hk : ∀ (j : Nat) (l : L), (cats.flatMap (·.labels))[j]? = some l → ∃ m : Nat, uikey[j]? = some ((m : Int) + base) ∧ newU[m]? = some l)
    (i : Nat) (c : Part L) (us : List Int) (hc : cats[i]? = some c) (hus : (cut uikey (cats.map (·.labels.length)))[i]? = some us) :
    us.length = c.labels.length ∧
      ∀ (j : Nat) (l : L), c.labels[j]? = some l → ∃ m : Nat, us[j]? = some ((m : Int) + base) ∧ newU[m]? = some l := by
  induction cats generalizing uikey i with
  | nil => simp at hc
  | cons c0 cs ih =>
    simp only [List.flatMap_cons, List.length_append] at hl
    simp only [List.flatMap_cons] at hk
    cases i with
    | zero =>
      simp [cut] at hc hus
      subst hc; subst hus
      refine ⟨by rw [List.length_take]; omega, fun j l hj => ?_⟩
      have hjl : j < c0.labels.length := (List.getElem?_eq_some_iff.1 hj).1
      obtain ⟨m, h1, h2⟩ := hk j l (by rw [List.getElem?_append_left hjl]; exact hj)
      exact ⟨m, by rw [List.getElem?_take_of_lt hjl]; exact h1, h2⟩
    | succ i =>
      simp only [List.map_cons, cut, List.getElem?_cons_succ] at hc hus
      refine ih (uikey.drop c0.labels.length) (by rw [List.length_drop]; omega) ?_ i hc hus
      intro j l hj
      obtain ⟨m, h1, h2⟩ := hk (c0.labels.length + j) l (by
        rw [List.getElem?_append_right (by omega), show c0.labels.length + j - c0.labels.length = j by omega]; exact hj)
      exact ⟨m, by rw [List.getElem?_drop]; exact h1, h2⟩

theorem flatMap_length_sum {α β : Type} (f : β → List α) (l : List β) : (l.flatMap f).length = (l.map fun x => (f x).length).sum := by
  induction l with
  | nil => rfl
  | cons x xs ih => simp [ih]

/-- the distinct labels picked by the grouping -/
theorem picked (g : List L → Grp) (hg : GroupOK g) (u : List L) :
    ((g u).iFirst.filterMap fun p => u[p]?).Nodup ∧
    ∀ (i : Nat) (x : L), u[i]? = some x → ∃ m : Nat, (g u).iKey[i]? = some (m + 1) ∧ ((g u).iFirst.filterMap fun p => u[p]?)[m]? = some x := by
  have hmap : (g u).iFirst.map (fun p => u[p]?) = ((g u).iFirst.filterMap fun p => u[p]?).map some := by
    have hf := hg.first u
    generalize (g u).iFirst = f at hf
    induction f with
    | nil => rfl
    | cons p ps ih =>
      have hp := hf p (by simp)
      rw [List.map_cons, List.filterMap_cons, List.getElem?_eq_getElem hp]
      dsimp only
      rw [List.map_cons, ih fun q hq => hf q (by simp [hq])]
  constructor
  · have := hg.distinct u
    rw [hmap] at this
    exact this.of_map _
  · intro i x hx
    obtain ⟨m, p, h1, h2, h3⟩ := hg.key u i x hx
    refine ⟨m, h1, ?_⟩
    have h4 : ((g u).iFirst.map fun p => u[p]?)[m]? = some (some x) := by rw [List.getElem?_map, h2, Option.map_some, h3]
    rw [hmap, List.getElem?_map] at h4
    cases h5 : ((g u).iFirst.filterMap fun p => u[p]?)[m]? with
    | none => rw [h5] at h4; simp at h4
    | some y =>
      rw [h5] at h4
      simpa using h4

/-- **C27** Stacking Categoricals of one base index: the rows of the result are labelled as the rows of the parts, one part
after the other, filtered rows stay filtered, and the categories of the result are distinct.  Parts may have no category. -/
theorem hstack_rows (crc : List L → Nat) (hcrc : ∀ a b, a.length = b.length → crc a = crc b → a = b)
    (g : List L → Grp) (hg : GroupOK g) {base : Nat} (hb : base ≤ 1) (cats : List (Part L)) (hne : cats ≠ [])
    (hwf : ∀ c ∈ cats, c.WF base)
    (buf : List Int) (hbuf : buf.length = (cats.flatMap (·.codes)).length) :
    ∃ codes labels, hstackCats crc g base cats buf = some (codes, labels) ∧
      codes.map (label? base labels) = cats.flatMap (·.rows base) ∧ labels.Nodup ∧
      ∀ k ∈ codes, 0 ≤ k ∧ k < (base : Int) + labels.length := by
  unfold hstackCats mergeCats
  have hsl : slices (cats.flatMap (·.labels)) 0 (cumsum 0 (cats.map (·.labels.length))) = cats.map (·.labels) := by
    have := slices_flatMap (fun c : Part L => c.labels) cats []
    simpa using this
  dsimp only
  rw [hsl]
  split
  · rename_i hcond
    obtain ⟨h1, _⟩ := hcond
    unfold hstackGroupings
    rw [cumsum_length, List.length_map, if_neg (by simpa using (by simp at h1; omega : ¬ cats.length = 1))]
    dsimp only
    generalize hU : cats.flatMap (·.labels) = U
    obtain ⟨hnd, hkey⟩ := picked g hg U
    generalize hN : (List.filterMap (fun p => U[p]?) (g U).iFirst) = newU at hnd hkey
    generalize hik : ((g U).iKey.map fun k : Nat => if base = 0 then (k : Int) - 1 else (k : Int)) = uikey
    have hik_len : uikey.length = (cats.flatMap (·.labels)).length := by
      rw [← hik, List.length_map, hg.len, hU]
    have hk : ∀ (j : Nat) (l : L), (cats.flatMap (·.labels))[j]? = some l →
        ∃ m : Nat, uikey[j]? = some ((m : Int) + base) ∧ newU[m]? = some l := by
      intro j l hj
      rw [hU] at hj
      obtain ⟨m, hm1, hm2⟩ := hkey j l hj
      refine ⟨m, ?_, hm2⟩
      rw [← hik, List.getElem?_map, hm1, Option.map_some]
      congr 1
      split <;> push_cast <;> omega
    have hsum : (cats.map (·.labels.length)).sum = uikey.length := by
      rw [hik_len, flatMap_length_sum]
    obtain ⟨st, out, ho1, ho2, ho3⟩ := reindexLoop_spec hb newU cats [] [] (cut uikey (cats.map (·.labels.length)))
      (by rw [cut_length, List.length_map]) (fun i c us h1 h2 => cut_uikey newU cats uikey hik_len hk i c us h1 h2)
      hwf [] buf rfl hbuf
    rw [cut_flatten _ _ hsum] at ho1
    simp only [List.nil_append, List.length_nil] at ho1
    rw [ho1]
    exact ⟨out, newU, rfl, ho2, hnd, ho3⟩
  · rename_i hcond
    cases cats with
    | nil => exact absurd rfl hne
    | cons c cs =>
      have hall : ∀ c' ∈ cs, c'.labels = c.labels := by
        intro c' hc'
        have : ¬ (crcMatch crc ((c :: cs).map (·.labels)) = false) := by
          intro hx
          refine hcond ⟨?_, hx⟩
          have : 0 < cs.length := List.length_pos_of_mem hc'
          simp; omega
        have hm : crcMatch crc ((c :: cs).map (·.labels)) = true := by
          cases h : crcMatch crc ((c :: cs).map (·.labels)) with
          | true => rfl
          | false => exact absurd h this
        simp only [List.map_cons, crcMatch, List.all_eq_true, List.mem_map] at hm
        have := hm c'.labels ⟨c', hc', rfl⟩
        have := of_decide_eq_true this
        exact (hcrc _ _ this.1 this.2).symm
      have hall' : ∀ c' ∈ c :: cs, c'.labels = c.labels := by
        intro c' hc'
        rcases List.mem_cons.1 hc' with h | h
        · rw [h]
        · exact hall c' h
      refine ⟨_, _, rfl, ?_, ?_, ?_⟩
      · simp only [List.map_cons, List.headD_cons]
        rw [List.map_flatMap]
        unfold List.flatMap
        congr 1
        refine List.map_congr_left fun c' hc' => ?_
        unfold Part.rows
        rw [hall' c' hc']
      · exact (hwf c (by simp)).nodup
      · intro k hk
        obtain ⟨c', hc', hk'⟩ := List.mem_flatMap.1 hk
        have h1 := (hwf c' hc').lo k hk'
        have h2 := (hwf c' hc').hi k hk'
        rw [hall' c' hc'] at h2
        simpa using ⟨h1, h2⟩

/-! ## A grouping function that meets the contract -/

/-- groups by first occurrence -/
def refGroup (u : List L) : Grp :=
  ⟨u.map fun x => u.eraseDups.idxOf x + 1, u.eraseDups.map fun x => u.idxOf x⟩

theorem nodup_eraseDups (l : List L) : l.eraseDups.Nodup := by
  generalize hn : l.length = n
  induction n using Nat.strongRecOn generalizing l with
  | ind n ih =>
    cases l with
    | nil => simp
    | cons a l =>
      rw [List.eraseDups_cons, List.nodup_cons]
      refine ⟨by simp [List.mem_eraseDups], ?_⟩
      refine ih _ ?_ _ rfl
      have := List.length_filter_le (fun b => !b == a) l
      simp only [List.length_cons] at hn
      omega

theorem get_idxOf {l : List L} {x : L} (h : x ∈ l) : l[l.idxOf x]? = some x := by
  have hlt := List.idxOf_lt_length_iff.mpr h
  rw [List.getElem?_eq_getElem hlt, List.getElem_idxOf hlt]

theorem refGroup_ok : GroupOK (refGroup (L := L)) := by
  refine ⟨fun u => by simp [refGroup], ?_, ?_, ?_⟩
  · intro u p hp
    simp only [refGroup, List.mem_map] at hp
    obtain ⟨x, hx, rfl⟩ := hp
    exact List.idxOf_lt_length_iff.mpr (List.mem_eraseDups.1 hx)
  · intro u
    have : (refGroup u).iFirst.map (fun p => u[p]?) = u.eraseDups.map some := by
      simp only [refGroup, List.map_map]
      refine List.map_congr_left fun x hx => ?_
      exact get_idxOf (List.mem_eraseDups.1 hx)
    rw [this]
    exact (nodup_eraseDups u).map (Option.some_injective _)
  · intro u i x hx
    have hm : x ∈ u := List.mem_of_getElem? hx
    refine ⟨u.eraseDups.idxOf x, u.idxOf x, ?_, ?_, get_idxOf hm⟩
    · simp [refGroup, hx]
    · simp only [refGroup]
      rw [List.getElem?_map, get_idxOf (List.mem_eraseDups.2 hm)]
      rfl

/-! ## Comparison of two Categoricals -/

/-- `c1 == c2` for array categories (`rt_categorical.py:4762-4771`): `merge_cats` is called *without* the base index, whose
default is 1. -/
def compareCats (crc : List L → Nat) (g : List L → Grp) (a b : Part L) (buf : List Int) : Option (List Bool) :=
  (hstackCats crc g 1 [a, b] buf).map fun r =>
    List.zipWith (fun x y => decide (x = y)) (r.1.take a.codes.length) (r.1.drop a.codes.length)

/-- Comparing two Categoricals of base index 1 row by row: true exactly where the labels are equal, or both rows filtered. -/
theorem compareCats_rows (crc : List L → Nat) (hcrc : ∀ a b, a.length = b.length → crc a = crc b → a = b)
    (g : List L → Grp) (hg : GroupOK g) (a b : Part L) (ha : a.WF 1) (hb : b.WF 1)
    (hl : a.codes.length = b.codes.length)
    (buf : List Int) (hbuf : buf.length = a.codes.length + b.codes.length) :
    compareCats crc g a b buf = some (List.zipWith (fun x y => decide (x = y)) (a.rows 1) (b.rows 1)) := by
  obtain ⟨codes, labels, h1, h2, h3, h4⟩ := hstack_rows crc hcrc g hg (Nat.le_refl 1) [a, b] (by simp)
    (by intro c hc; simp at hc; rcases hc with rfl | rfl <;> assumption) buf (by simpa using hbuf)
  unfold compareCats
  rw [h1, Option.map_some]
  congr 1
  simp only [List.flatMap_cons, List.flatMap_nil, List.append_nil] at h2
  have hal : (a.rows 1).length = a.codes.length := by simp [Part.rows]
  have e1 : (codes.take a.codes.length).map (label? 1 labels) = a.rows 1 := by
    rw [List.map_take, h2, ← hal, List.take_left]
  have e2 : (codes.drop a.codes.length).map (label? 1 labels) = b.rows 1 := by
    rw [List.map_drop, h2, ← hal, List.drop_left]
  rw [← e1, ← e2]
  have hinj : ∀ x ∈ codes, ∀ y ∈ codes, (label? 1 labels x = label? 1 labels y ↔ x = y) := by
    intro x hx y hy
    refine ⟨fun h => ?_, fun h => by rw [h]⟩
    obtain ⟨hx0, hx1⟩ := h4 x hx
    obtain ⟨hy0, hy1⟩ := h4 y hy
    push_cast at hx1 hy1
    unfold label? at h
    push_cast at h
    by_cases hxz : x < 1
    · rw [if_pos hxz] at h
      by_cases hyz : y < 1
      · omega
      · rw [if_neg hyz, List.getElem?_eq_getElem (by omega)] at h
        simp at h
    · rw [if_neg hxz] at h
      have hxl : (x - 1).toNat < labels.length := by omega
      by_cases hyz : y < 1
      · rw [if_pos hyz, List.getElem?_eq_getElem hxl] at h
        simp at h
      · have hyl : (y - 1).toNat < labels.length := by omega
        rw [if_neg hyz, List.getElem?_eq_getElem hxl, List.getElem?_eq_getElem hyl] at h
        have := (List.Nodup.getElem_inj_iff h3).1 (Option.some.inj h)
        omega
  have hcong : ∀ (xs ys : List Int), (∀ x ∈ xs, x ∈ codes) → (∀ y ∈ ys, y ∈ codes) →
      List.zipWith (fun x y => decide (x = y)) xs ys =
        List.zipWith (fun x y => decide (x = y)) (xs.map (label? 1 labels)) (ys.map (label? 1 labels)) := by
    intro xs
    induction xs with
    | nil => intro ys _ _; rfl
    | cons x xs ih =>
      intro ys hx hy
      cases ys with
      | nil => rfl
      | cons y ys =>
        simp only [List.map_cons, List.zipWith_cons_cons]
        rw [ih ys (fun z hz => hx z (by simp [hz])) (fun z hz => hy z (by simp [hz]))]
        congr 1
        rw [decide_eq_decide]
        exact (hinj x (hx x (by simp)) y (hy y (by simp))).symm
  exact hcong _ _ (fun x hx => List.mem_of_mem_take hx) (fun y hy => List.mem_of_mem_drop hy)

/-! ## Examples and counterexamples -/

/-- an injective checksum on short lists of small numbers, for the examples -/
def exCrc (l : List Nat) : Nat := l.foldl (fun a x => a * 256 + x + 1) 0

def exParts : List (Part Nat) := [⟨[1, 2, 0, 2], [10, 20]⟩, ⟨[2, 1, 0], [30, 20]⟩, ⟨[1], [10]⟩]

example : ∀ c ∈ exParts, c.WF 1 := by
  intro c hc
  simp only [exParts, List.mem_cons, List.not_mem_nil, or_false] at hc
  rcases hc with rfl | rfl | rfl <;> exact ⟨by decide, by decide, by decide⟩

example : (hstackCats exCrc refGroup 1 exParts [9, 9, 9, 9, 9, 9, 9, 9]).map (·.1) = some [1, 2, 0, 2, 2, 3, 0, 1] := by decide

/-- a part in which everything is filtered and that has no categories -/
example : hstackCats exCrc refGroup 1 [⟨[0], []⟩, ⟨[1], [7]⟩] [9, 9] = some ([0, 1], [7]) := by decide

/-- With base index 0, rows filtered by `category_remove` (code -1) get the last category of their part. -/
theorem hstack_base0_filtered_counterexample : ∃ a b : Part Nat, a.rows 0 = [some 5, none] ∧
    hstackCats exCrc refGroup 0 [a, b] [0, 0, 0] = some ([0, 1, 2], [5, 6, 7]) :=
  ⟨⟨[0, -1], [5, 6]⟩, ⟨[0], [7]⟩, by decide, by decide⟩

/-- Two Categoricals of base index 0 are compared wrongly: rows 5 and 6 of different labels are equal. -/
theorem compare_base0_counterexample : ∃ a b : Part Nat, a.WF 0 ∧ b.WF 0 ∧ a.rows 0 = [some 5] ∧ b.rows 0 = [some 6] ∧
    compareCats exCrc refGroup a b [0, 0] = some [true] :=
  ⟨⟨[0], [5]⟩, ⟨[0], [6]⟩, ⟨by decide, by decide, by decide⟩, ⟨by decide, by decide, by decide⟩, by decide, by decide, by decide⟩

end Verif.Cat
