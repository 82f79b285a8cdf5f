import Verif.PDs.Spec
import Mathlib.Data.List.Basic
import Mathlib.Data.List.Perm.Subperm
import Mathlib.Data.Int.Cast.Basic
/-! # Lemmas -/
namespace Verif.PDs
open Verif.Items (Name Dict)
open Verif.Items.Dict

variable {R : Type}

theorem cumsum_length (a : Nat) (ns : List Nat) : (cumsum a ns).length = ns.length := by
  induction ns generalizing a with
  | nil => rfl
  | cons n ns ih => simp [cumsum, ih]

theorem cumsum_get (a : Nat) (ns : List Nat) (i : Nat) (h : i < ns.length) :
    (cumsum a ns)[i]? = some (a + (ns.take (i + 1)).sum) := by
  induction ns generalizing a i with
  | nil => simp at h
  | cons n ns ih =>
    cases i with
    | zero => simp [cumsum]
    | succ i =>
      simp only [cumsum, List.getElem?_cons_succ, List.take_succ_cons, List.sum_cons]
      rw [ih _ _ (by simpa using h)]
      simp; omega

theorem prows_cumsum (a : Nat) (ns : List Nat) :
    List.zipWith (fun a b => a - b) (cumsum a ns) (a :: cumsum a ns) = ns := by
  induction ns generalizing a with
  | nil => rfl
  | cons n ns ih =>
    simp only [cumsum, List.zipWith_cons_cons, ih]
    simp

/-- the rows before partition `i` -/
theorem slice_flatten (dss : List (List R)) (i : Nat) (h : i < dss.length) :
    some (sliceRows dss.flatten (((dss.map List.length).take i).sum, ((dss.map List.length).take (i + 1)).sum))
      = dss[i]? := by
  induction dss generalizing i with
  | nil => simp at h
  | cons ds dss ih =>
    cases i with
    | zero => simp [sliceRows]
    | succ i =>
      have := ih i (by simpa using h)
      simp only [List.map_cons, List.take_succ_cons, List.sum_cons, List.flatten_cons,
        List.getElem?_cons_succ] at this ⊢
      rw [← this]
      simp only [sliceRows]
      rw [List.drop_length_add_append, Nat.add_sub_add_left]

theorem pyGet_nat {α : Type} (a : List α) (i : Nat) : pyGet a i = a[i]? := by
  simp [pyGet]

theorem pyGet_neg {α : Type} (a : List α) (k : Nat) (h : 0 < k) (hk : k ≤ a.length) :
    pyGet a (-(k : Int)) = a[a.length - k]? := by
  have h1 : ¬ (0 : Int) ≤ -(k : Int) := by omega
  have h2 : -(a.length : Int) ≤ -(k : Int) := by omega
  have h3 : ((a.length : Int) + -(k : Int)).toNat = a.length - k := by omega
  simp only [pyGet, if_neg h1, if_pos h2, h3]

theorem pslice_nat (d : PDS R) (ns : List Nat) (hc : d.cutoffs = cumsum 0 ns) (i : Nat) (h : i < ns.length) :
    pslice d i = some ((ns.take i).sum, (ns.take (i + 1)).sum) := by
  have hg : ∀ j, j < ns.length → pyGet d.cutoffs (j : Int) = some ((ns.take (j + 1)).sum) := by
    intro j hj
    rw [pyGet_nat, hc, cumsum_get 0 ns j hj, Nat.zero_add]
  cases i with
  | zero =>
    rw [pslice, if_pos (show ((0 : Nat) : Int) = 0 from rfl), hg 0 h]
    rfl
  | succ i =>
    have h1 : ¬ ((i + 1 : Nat) : Int) = 0 := by omega
    have h2 : ((i + 1 : Nat) : Int) - 1 = (i : Int) := by omega
    rw [pslice, if_neg h1, h2, hg i (by omega), hg (i + 1) h]

theorem pslice_neg (d : PDS R) (ns : List Nat) (hc : d.cutoffs = cumsum 0 ns) (k : Nat) (h0 : 0 < k) (h : k < ns.length) :
    pslice d (-(k : Int)) = pslice d ((ns.length - k : Nat) : Int) := by
  have hl : d.cutoffs.length = ns.length := by rw [hc, cumsum_length]
  have a1 : ¬ -(k : Int) = 0 := by omega
  have a2 : ¬ ((ns.length - k : Nat) : Int) = 0 := by omega
  have a3 : -(k : Int) - 1 = -((k + 1 : Nat) : Int) := by omega
  have a4 : ((ns.length - k : Nat) : Int) - 1 = ((ns.length - k - 1 : Nat) : Int) := by omega
  rw [pslice, if_neg a1, pslice, if_neg a2, a3, a4, pyGet_neg _ _ (by omega) (by omega),
    pyGet_neg _ _ h0 (by omega), pyGet_nat, pyGet_nat, hl]
  rfl

/-! ## Names -/

theorem nameDict_aux (ps : List Name) (k : Nat) (acc : Dict Name Nat) (h : ps.Nodup)
    (hd : ∀ p ∈ ps, p ∉ acc.keys) :
    (ps.zip (List.range' k ps.length)).foldl (fun (d : Dict Name Nat) (p : Name × Nat) => d.set p.1 p.2) acc
      = acc ++ ps.zip (List.range' k ps.length) := by
  induction ps generalizing k acc with
  | nil => simp
  | cons p ps ih =>
    rw [List.nodup_cons] at h
    simp only [List.length_cons, List.range'_succ, List.zip_cons_cons, List.foldl_cons]
    rw [ih _ _ h.2, set_of_notMem (hd p (by simp))]
    · simp
    · intro q hq
      rw [mem_keys_set]
      rintro (rfl | hk)
      · exact h.1 hq
      · exact hd q (by simp [hq]) hk

theorem nameDict_nodup {ps : List Name} (h : ps.Nodup) : nameDict ps = ps.zip (List.range ps.length) := by
  rw [nameDict, List.range_eq_range', nameDict_aux ps 0 [] h (by simp [keys])]
  simp

theorem nameDict_keys_nodup (ps : List Name) : (keys (nameDict ps)).Nodup := by
  unfold nameDict
  generalize ps.zip (List.range ps.length) = l
  suffices ∀ acc : Dict Name Nat, acc.keys.Nodup →
      (keys (l.foldl (fun (d : Dict Name Nat) (p : Name × Nat) => d.set p.1 p.2) acc)).Nodup from this [] (by simp [keys])
  induction l with
  | nil => intro acc h; exact h
  | cons p l ih => intro acc h; exact ih _ (nodup_set h _ _)

theorem nameDict_mem (ps : List Name) (n : Name) : n ∈ keys (nameDict ps) ↔ n ∈ ps := by
  unfold nameDict
  have : ∀ (l : List (Name × Nat)) (acc : Dict Name Nat),
      n ∈ keys (l.foldl (fun (d : Dict Name Nat) (p : Name × Nat) => d.set p.1 p.2) acc) ↔
        n ∈ acc.keys ∨ n ∈ l.map Prod.fst := by
    intro l
    induction l with
    | nil => simp
    | cons p l ih =>
      intro acc
      rw [List.foldl_cons, ih, mem_keys_set]
      simp only [List.map_cons, List.mem_cons]
      tauto
  rw [this, List.map_fst_zip (by simp)]
  simp [keys]

/-- a dictionary of as many names as given has them all -/
theorem nodup_of_length {ps : List Name} (h : (nameDict ps).length = ps.length) : ps.Nodup := by
  have h1 := nameDict_keys_nodup ps
  have h2 : keys (nameDict ps) ⊆ ps := fun n hn => (nameDict_mem ps n).1 hn
  have h3 : (keys (nameDict ps)).Subperm ps := h1.subperm h2
  have h4 := h3.perm_of_length_le (by simp [keys, h])
  exact h4.nodup_iff.1 h1

theorem nameDict_fst {ps : List Name} (h : ps.Nodup) : (nameDict ps).map Prod.fst = ps := by
  rw [nameDict_nodup h, List.map_fst_zip (by simp)]

theorem nameDict_get {ps : List Name} (h : ps.Nodup) {i : Nat} {n : Name} (hi : ps[i]? = some n) :
    (nameDict ps).get n = some i := by
  rw [get_iff (nameDict_keys_nodup ps), nameDict_nodup h]
  rw [List.mem_iff_getElem?]
  refine ⟨i, ?_⟩
  have hl : i < ps.length := (List.getElem?_eq_some_iff.1 hi).1
  rw [List.getElem?_zip_eq_some]
  exact ⟨hi, by simp [hl]⟩

/-! ## Everything shown -/

theorem mapM_some_eq {α β : Type} (f : α → Option β) (l : List α) (g : List β)
    (h : l.length = g.length) (hf : ∀ i (h1 : i < l.length), f l[i] = g[i]?) : l.mapM f = some g := by
  induction l generalizing g with
  | nil => simp at h; simp [List.length_eq_zero_iff.1 h.symm]
  | cons a l ih =>
    cases g with
    | nil => simp at h
    | cons b g =>
      have h0 := hf 0 (by simp)
      simp only [List.getElem_cons_zero, List.getElem?_cons_zero] at h0
      rw [List.mapM_cons, h0, ih g (by simpa using h)]
      · rfl
      · intro i h1
        have := hf (i + 1) (by simpa using h1)
        rwa [List.getElem_cons_succ, List.getElem?_cons_succ] at this

/-- what a PDataset made of these Datasets consists of -/
structure Inv (d : PDS R) (dss : List (List R)) (ps : List Name) : Prop where
  rows : d.rows = dss.flatten
  cutoffs : d.cutoffs = cumsum 0 (dss.map List.length)
  pnames : d.pnames = nameDict ps
  nodup : ps.Nodup
  len : ps.length = dss.length

theorem filter_take_aux (a : Nat) (ns : List Nat) (r : Nat) (h : r < a) :
    (cumsum a ns).filter (fun c => c ≤ r) = [] := by
  induction ns generalizing a with
  | nil => rfl
  | cons n ns ih =>
    have : ¬ a + n ≤ r := by omega
    simp only [cumsum, List.filter_cons, decide_eq_true_eq, if_neg this]
    exact ih _ (by omega)

theorem label_aux (ps : List Name) (dss : List (List R)) (a r : Nat) (hl : ps.length = dss.length)
    (h : r < dss.flatten.length) :
    ps[((cumsum a (dss.map List.length)).filter fun c => c ≤ a + r).length]? = (rowNames ps dss)[r]? := by
  induction dss generalizing ps a r with
  | nil => simp at h
  | cons ds dss ih =>
    cases ps with
    | nil => simp at hl
    | cons p ps =>
      simp only [List.map_cons, cumsum, rowNames, List.zip_cons_cons, List.flatMap_cons]
      by_cases hr : r < ds.length
      · have h1 : ¬ a + ds.length ≤ a + r := by omega
        simp only [List.filter_cons, decide_eq_true_eq, if_neg h1]
        rw [filter_take_aux _ _ _ (by omega), List.getElem?_append_left (by simpa using hr)]
        simp [hr]
      · have h1 : a + ds.length ≤ a + r := by omega
        simp only [List.filter_cons, decide_eq_true_eq, if_pos h1, List.length_cons, List.getElem?_cons_succ]
        rw [List.getElem?_append_right (by simpa using hr)]
        have := ih ps (a + ds.length) (r - ds.length) (by simpa using hl)
          (by simp only [List.flatten_cons, List.length_append] at h; omega)
        rw [show a + ds.length + (r - ds.length) = a + r by omega] at this
        rw [this]
        simp [rowNames]

/-- the partition a row is in -/
def idxOf (ns : List Nat) (a r : Nat) : Nat := ((cumsum a ns).filter fun c => c ≤ a + r).length

theorem idxOf_spec (ns : List Nat) (a r : Nat) (h : r < ns.sum) :
    idxOf ns a r < ns.length ∧ (ns.take (idxOf ns a r)).sum ≤ r ∧ r < (ns.take (idxOf ns a r + 1)).sum := by
  induction ns generalizing a r with
  | nil => simp at h
  | cons n ns ih =>
    by_cases hr : r < n
    · have h1 : ¬ a + n ≤ a + r := by omega
      have : idxOf (n :: ns) a r = 0 := by
        simp only [idxOf, cumsum, List.filter_cons, decide_eq_true_eq, if_neg h1]
        rw [filter_take_aux _ _ _ (by omega)]
        rfl
      rw [this]
      simp [hr]
    · have h1 : a + n ≤ a + r := by omega
      have : idxOf (n :: ns) a r = idxOf ns (a + n) (r - n) + 1 := by
        simp only [idxOf, cumsum, List.filter_cons, decide_eq_true_eq, if_pos h1, List.length_cons]
        rw [show a + n + (r - n) = a + r by omega]
      rw [this]
      rw [List.sum_cons] at h
      obtain ⟨i1, i2, i3⟩ := ih (a + n) (r - n) (by omega)
      simp only [List.length_cons, List.take_succ_cons, List.sum_cons] at i3 ⊢
      omega

theorem take_sum_mono (ns : List Nat) {i j : Nat} (h : i ≤ j) : (ns.take i).sum ≤ (ns.take j).sum := by
  obtain ⟨k, rfl⟩ := Nat.exists_eq_add_of_le h
  rw [List.take_add, List.sum_append]
  omega

theorem idxOf_unique (ns : List Nat) (a r i : Nat) (h : r < ns.sum) (h1 : (ns.take i).sum ≤ r)
    (h2 : r < (ns.take (i + 1)).sum) : idxOf ns a r = i := by
  obtain ⟨_, i2, i3⟩ := idxOf_spec ns a r h
  rcases Nat.lt_trichotomy (idxOf ns a r) i with hlt | he | hgt
  · have := take_sum_mono ns (show idxOf ns a r + 1 ≤ i by omega); omega
  · exact he
  · have := take_sum_mono ns (show i + 1 ≤ idxOf ns a r by omega); omega

theorem codes_eq (d : PDS R) (ns : List Nat) (hc : d.cutoffs = cumsum 0 ns) (hr : d.rows.length = ns.sum)
    (k : Nat) (hk : k ≤ ns.length) (r : Nat) (h : r < ns.sum) :
    ((List.range k).foldl (writePart d) (List.replicate d.rows.length none))[r]?
      = some (if r < (ns.take k).sum then some (idxOf ns 0 r + 1) else none) := by
  induction k with
  | zero => simp [hr, h]
  | succ k ih =>
    rw [List.range_succ, List.foldl_append]
    simp only [List.foldl_cons, List.foldl_nil]
    rw [writePart, pslice_nat d ns hc k (by omega)]
    simp only
    rw [writeSlice, List.getElem?_mapIdx]
    rw [ih (by omega), Option.map_some]
    have hmono := take_sum_mono ns (show k ≤ k + 1 by omega)
    congr 1
    by_cases h1 : (ns.take k).sum ≤ r ∧ r < (ns.take (k + 1)).sum
    · rw [if_pos h1, if_pos h1.2, idxOf_unique ns 0 r k h h1.1 h1.2]
    · rw [if_neg h1]
      by_cases h2 : r < (ns.take k).sum
      · rw [if_pos h2, if_pos (by omega)]
      · rw [if_neg h2, if_neg (by omega)]

theorem shows_of_inv {d : PDS R} {dss : List (List R)} {ps : List Name} (h : Inv d dss ps) : Shows d dss ps := by
  have hps : ∀ i : Nat, i < dss.length → pslice d i
      = some (((dss.map List.length).take i).sum, ((dss.map List.length).take (i + 1)).sum) :=
    fun i hi => pslice_nat d _ h.cutoffs i (by simpa using hi)
  have hpart : ∀ i : Nat, i < dss.length → partition d i = dss[i]? := by
    intro i hi
    rw [partition, hps i hi, Option.map_some, h.rows, slice_flatten dss i hi]
  have hnames : names d = ps := by rw [names, h.pnames, nameDict_fst h.nodup]
  have hcount : pcount d = dss.length := by rw [pcount, h.cutoffs, cumsum_length, List.length_map]
  have hsum : d.rows.length = (dss.map List.length).sum := by rw [h.rows, List.length_flatten]
  have hlab : ∀ r : Nat, r < d.rows.length → rowLabel d r = (rowNames ps dss)[r]? := by
    intro r hr
    rw [rowLabel, hnames, h.cutoffs]
    have := label_aux ps dss 0 r h.len (by rw [← h.rows]; exact hr)
    rwa [Nat.zero_add] at this
  have hrn : (rowNames ps dss).length = d.rows.length := by
    rw [h.rows]
    have := h.len
    clear h hps hpart hnames hcount hsum hlab
    induction dss generalizing ps with
    | nil => simp [rowNames]
    | cons ds dss ih =>
      cases ps with
      | nil => simp at this
      | cons p ps =>
        have := ih (ps := ps) (by simpa using this)
        simp only [rowNames, List.zip_cons_cons, List.flatMap_cons, List.length_append, List.length_map,
          List.flatten_cons] at this ⊢
        omega
  refine ⟨hcount, ?_, hnames, h.rows, hpart, ?_, ?_, ?_, ?_, hlab, ?_⟩
  · rw [prows, h.cutoffs, prows_cumsum]
  · intro k h0 hk
    rw [partition, pslice_neg d _ h.cutoffs k h0 (by simpa using hk), List.length_map]
    exact hpart _ (by omega)
  · rw [piter]
    refine mapM_some_eq _ _ _ (by simp [hcount, h.len]) ?_
    intro i h1
    have hi : i < dss.length := by simpa [hcount] using h1
    rw [List.getElem_range, hnames, hpart i hi, List.getElem?_eq_getElem (by rw [h.len]; exact hi),
      List.getElem?_eq_getElem hi]
    simp [h.len, hi]
  · refine ⟨(List.range dss.length).map fun i =>
        (((dss.map List.length).take i).sum, ((dss.map List.length).take (i + 1)).sum), ?_, by simp, ?_⟩
    · rw [pdict]
      refine mapM_some_eq _ _ _ (by simp [hnames, h.len]) ?_
      intro i h1
      have hi : i < dss.length := by
        simpa [hnames, h.len] using h1
      simp only [List.getElem_zip, List.getElem_range, hnames]
      rw [hps i hi]
      simp [h.len, hi]
    · rw [List.map_map]
      refine List.ext_getElem? fun i => ?_
      by_cases hi : i < dss.length
      · rw [List.getElem?_map, List.getElem?_range hi]
        simp only [Option.map_some, Function.comp, h.rows]
        exact slice_flatten dss i hi
      · rw [List.getElem?_eq_none (by simpa using hi), List.getElem?_eq_none (by simpa using hi)]
  · intro i n hi hn
    have hl : i < dss.length := by rw [← h.len]; exact (List.getElem?_eq_some_iff.1 hi).1
    refine ⟨dss[i], List.getElem?_eq_getElem hl, ?_⟩
    rw [getItem, if_neg hn, byName, h.pnames, nameDict_get h.nodup hi]
    simp only
    rw [hpart i hl, List.getElem?_eq_getElem hl]
  · intro hcache
    simp only [pcat, hcache, shown]
    refine List.ext_getElem? fun r => ?_
    rw [List.getElem?_map, List.getElem?_map]
    have hlen : ∀ (l : List Nat) (cs : List (Option Nat)), (l.foldl (writePart d) cs).length = cs.length := by
      intro l
      induction l with
      | nil => intro cs; rfl
      | cons i l ih =>
        intro cs
        rw [List.foldl_cons, ih, writePart]
        cases pslice d (i : Int) with
        | none => rfl
        | some s => simp [writeSlice]
    by_cases hr : r < d.rows.length
    · have hr' : r < (dss.map List.length).sum := hsum ▸ hr
      rw [hcount, codes_eq d _ h.cutoffs hsum dss.length (by simp) r hr',
        List.take_of_length_le (by simp), if_pos hr', ← hlab r hr]
      simp only [Option.map_some, rowLabel, h.cutoffs, idxOf, Nat.zero_add]
      have hin : ((cumsum 0 (dss.map List.length)).filter fun c => c ≤ r).length < (names d).length := by
        have := (idxOf_spec (dss.map List.length) 0 r hr').1
        rw [idxOf, Nat.zero_add, List.length_map] at this
        rwa [hnames, h.len]
      rw [List.getElem?_eq_getElem hin]
      rfl
    · rw [List.getElem?_eq_none (by rw [hlen]; simpa using hr), List.getElem?_eq_none (by rw [hrn]; simpa using hr)]
      rfl

end Verif.PDs
