import Verif.Reduce.Logic
import Std.Data.String.ToNat

/-!
# Properties: transposing (C92)
-/
namespace Verif.Reduce
open Verif.Items (Dict)
open Spec

variable {V T : Type}

theorem rowOf_get (m : List (List V)) (n i : Nat) (he : Even m n) (hi : i < n) (j : Nat) :
    (rowOf m i)[j]? = m[j]?.bind fun c => c[i]? := by
  induction m generalizing j with
  | nil => simp [rowOf]
  | cons c cs ih =>
    have hc : i < c.length := by rw [he c (by simp)]; exact hi
    have hcons : rowOf (c :: cs) i = c[i] :: rowOf cs i := by
      simp [rowOf, List.getElem?_eq_getElem hc]
    rw [hcons]
    cases j with
    | zero => simp [List.getElem?_eq_getElem hc]
    | succ j => simpa using ih (fun x hx => he x (List.mem_cons_of_mem _ hx)) j

theorem rowOf_length (m : List (List V)) (n i : Nat) (he : Even m n) (hi : i < n) : (rowOf m i).length = m.length := by
  induction m with
  | nil => rfl
  | cons c cs ih =>
    have hc : i < c.length := by rw [he c (by simp)]; exact hi
    have hcons : rowOf (c :: cs) i = c[i] :: rowOf cs i := by
      simp [rowOf, List.getElem?_eq_getElem hc]
    rw [hcons, List.length_cons, List.length_cons, ih fun x hx => he x (List.mem_cons_of_mem _ hx)]

/-- the rows of the rows are the columns -/
theorem rows_rows (m : List (List V)) (n : Nat) (he : Even m n) (j : Nat) (c : List V) (hj : m[j]? = some c) :
    rowOf ((List.range n).map (rowOf m)) j = c := by
  have hc : c.length = n := he c (List.mem_of_getElem? hj)
  have h1 : rowOf ((List.range n).map (rowOf m)) j = (List.range n).filterMap fun i => c[i]? := by
    simp only [rowOf, List.filterMap_map]
    apply List.filterMap_congr
    intro i hi
    have := rowOf_get m n i he (List.mem_range.1 hi) j
    simp only [Function.comp_apply]
    rw [this, hj]
    rfl
  rw [h1]
  clear h1 hj he
  subst hc
  induction c with
  | nil => rfl
  | cons a as ih =>
    rw [List.length_cons, List.range_succ_eq_map]
    simp only [List.filterMap_cons, List.getElem?_cons_zero, List.filterMap_map]
    congr 1

theorem addAll_ok (t : T) : ∀ (es : List (String × List V)) (acc : Dict String (Col V T)),
    (acc.keys ++ es.map Prod.fst).Nodup → addAll t es acc = acc ++ es.map fun e => (e.1, ⟨.num, true, t, e.2⟩) := by
  intro es
  induction es with
  | nil => intro acc _; simp [addAll]
  | cons e es ih =>
    intro acc h
    obtain ⟨n, xs⟩ := e
    have hnot : n ∉ acc.keys := by
      intro hm
      exact (List.disjoint_of_nodup_append h) hm (by simp)
    simp only [addAll]
    rw [Dict.set_of_notMem hnot, ih]
    · simp
    · simpa [Dict.keys] using h

/-- the value of `transpose` when no new name is repeated -/
theorem transpose_value (common : List T → T) (cast : T → V → V) (text : V → String) (ofText : String → V) (tt : T) (header : String) (d : Ds V T)
    (hc : chosen d ≠ []) (hl : (newNames text d).length = nrows d) (hn : (header :: newNames text d).Nodup) :
    transpose common cast text ofText tt header d = .ok
      { cols := (header, ⟨.text, false, tt, (chosen d).keys.map ofText⟩) ::
          ((newNames text d).zip ((List.range (nrows d)).map
            (rowOf ((chosen d).map fun e => e.2.vals.map (cast (common ((chosen d).map fun e => e.2.dtype))))))).map
            fun e => (e.1, ⟨.num, true, common ((chosen d).map fun e => e.2.dtype), e.2⟩)
        labels := [header] } := by
  simp only [transpose, imatrixMake, hc, if_false]
  rw [addAll_ok]
  · rfl
  · have : (((newNames text d).zip ((List.range (nrows d)).map fun i => List.filterMap (fun c => c[i]?)
        ((chosen d).map fun e => e.2.vals.map (cast (common ((chosen d).map fun e => e.2.dtype)))))).map Prod.fst) = newNames text d := by
      rw [List.map_fst_zip (by simp [hl])]
    rw [this]
    simpa [Dict.keys] using hn

/-- **C92.** If no name is repeated, transposing gives one column for every row, which holds the
entries of that row (converted to the common dtype) in the order of the columns, and a label column
with the names of the columns. -/
theorem transpose_partial (common : List T → T) (cast : T → V → V) (text : V → String) (ofText : String → V) (tt : T) (header : String) (d : Ds V T)
    (hc : chosen d ≠ []) (hl : (newNames text d).length = nrows d) (hn : (header :: newNames text d).Nodup) :
    ∃ r, transpose common cast text ofText tt header d = .ok r ∧ r.labels = [header] ∧ r.cols.keys = header :: newNames text d ∧
      (∃ c, r.cols.get header = some c ∧ c.vals = (chosen d).keys.map ofText) ∧
      ∀ i n, (newNames text d)[i]? = some n → ∃ c, r.cols.get n = some c ∧
        c.vals = rowOf ((chosen d).map fun e => e.2.vals.map (cast (common ((chosen d).map fun e => e.2.dtype)))) i := by
  have hk : Dict.keys ((header, (⟨.text, false, tt, (chosen d).keys.map ofText⟩ : Col V T)) ::
          ((newNames text d).zip ((List.range (nrows d)).map
            (rowOf ((chosen d).map fun e => e.2.vals.map (cast (common ((chosen d).map fun e => e.2.dtype))))))).map
            fun e => (e.1, ⟨.num, true, common ((chosen d).map fun e => e.2.dtype), e.2⟩)) = header :: newNames text d := by
    simp only [Dict.keys, List.map_cons, List.map_map, Function.comp_def]
    congr 1
    exact List.map_fst_zip (by simp [hl])
  refine ⟨_, transpose_value common cast text ofText tt header d hc hl hn, rfl, hk, ⟨⟨.text, false, tt, (chosen d).keys.map ofText⟩, ?_, rfl⟩, ?_⟩
  · rw [Dict.get_cons]; simp
  · intro i n hi
    refine ⟨⟨.num, true, common ((chosen d).map fun e => e.2.dtype), _⟩, Dict.get_of_mem (by rw [hk]; exact hn) ?_, rfl⟩
    apply List.mem_cons_of_mem
    rw [List.mem_map]
    refine ⟨(n, _), ?_, rfl⟩
    obtain ⟨hlt, hg⟩ := List.getElem?_eq_some_iff.1 hi
    rw [List.mem_iff_getElem]
    exact ⟨i, by simp [hl]; omega, by simp only [List.getElem_zip, List.getElem_map, List.getElem_range, hg]; rfl⟩

theorem newNames_plain (text : V → String) (d : Ds V T) (hl : d.labels = []) :
    newNames text d = (List.range (nrows d)).map fun (i : Nat) => "C" ++ toString i := by
  unfold newNames; rw [hl]

theorem toString_inj {i j : Nat} (h : toString i = toString j) : i = j := Nat.repr_injective h

/-- **C92, without labels** the names are `C0`, `C1`, … and never repeated. -/
theorem transpose_plain (common : List T → T) (cast : T → V → V) (text : V → String) (ofText : String → V) (tt : T) (header : String) (d : Ds V T)
    (hc : chosen d ≠ []) (hl : d.labels = []) (hh : ∀ i : Nat, header ≠ "C" ++ toString i) :
    ∃ r, transpose common cast text ofText tt header d = .ok r ∧ r.labels = [header] ∧
      (∃ c, r.cols.get header = some c ∧ c.vals = (chosen d).keys.map ofText) ∧
      ∀ i : Nat, i < nrows d → ∃ c, r.cols.get ("C" ++ toString i) = some c ∧
        c.vals = rowOf ((chosen d).map fun e => e.2.vals.map (cast (common ((chosen d).map fun e => e.2.dtype)))) i := by
  have hnd : (header :: newNames text d).Nodup := by
    rw [newNames_plain text d hl, List.nodup_cons]
    refine ⟨?_, ?_⟩
    · rw [List.mem_map]; rintro ⟨i, _, hi⟩; exact hh i hi.symm
    · apply List.Nodup.map_on _ List.nodup_range
      intro x _ y _ h
      have := congrArg String.toList h
      simp only [String.toList_append] at this
      have h2 := List.append_cancel_left this
      exact toString_inj (String.toList_injective h2)
  obtain ⟨r, h1, h2, _, h4, h5⟩ := transpose_partial common cast text ofText tt header d hc (by rw [newNames_plain text d hl]; simp) hnd
  refine ⟨r, h1, h2, h4, fun i hi => h5 i _ ?_⟩
  rw [newNames_plain text d hl]
  simp [hi]

/-- **C92, round trip.** Transposing twice a table without labels whose columns have one dtype and
different names gives back every column one can compute with, with a label column in front. -/
theorem transpose_round_trip_partial (common : List T → T) (cast : T → V → V) (text : V → String) (ofText : String → V) (tt : T) (header : String)
    (d : Ds V T) (n : Nat) (hn0 : 0 < n) (hev : Even (d.cols.map fun e => e.2.vals) n) (hc : chosen d ≠ []) (hl : d.labels = [])
    (hnd : d.cols.keys.Nodup) (hh : ∀ i : Nat, header ≠ "C" ++ toString i) (hhc : header ∉ (chosen d).keys)
    (htext : ∀ s, text (ofText s) = s) (hcast : ∀ t v, cast t v = v) :
    ∃ r rr, transpose common cast text ofText tt header d = .ok r ∧ transpose common cast text ofText tt header r = .ok rr ∧
      rr.cols.keys = header :: (chosen d).keys ∧
      ∀ k c, d.cols.get k = some c → c.comp = true → ∃ c', rr.cols.get k = some c' ∧ c'.comp = true ∧ c'.vals = c.vals := by
  have hne : d.cols ≠ [] := by intro h; simp [chosen, h] at hc
  have hrows : nrows d = n := nrows_of d hev hne
  have hnm := newNames_plain text d hl
  have hnd1 : (header :: newNames text d).Nodup := by
    rw [hnm, List.nodup_cons]
    refine ⟨?_, ?_⟩
    · rw [List.mem_map]; rintro ⟨i, _, hi⟩; exact hh i hi.symm
    · apply List.Nodup.map_on _ List.nodup_range
      intro x _ y _ h
      have := congrArg String.toList h
      simp only [String.toList_append] at this
      have h2 := List.append_cancel_left this
      exact toString_inj (String.toList_injective h2)
  have hv := transpose_value common cast text ofText tt header d hc (by rw [hnm]; simp) hnd1
  -- name the parts
  obtain ⟨m, hm⟩ : ∃ m, m = (chosen d).map fun e => e.2.vals := ⟨_, rfl⟩
  have hcm : ((chosen d).map fun e => e.2.vals.map (cast (common ((chosen d).map fun e => e.2.dtype)))) = m := by
    rw [hm]
    apply List.map_congr_left
    intro e _
    conv_rhs => rw [← List.map_id e.2.vals]
    exact List.map_congr_left fun v _ => hcast _ v
  rw [hcm, hrows] at hv
  have hme : Even m n := by
    intro c hcm'
    rw [hm] at hcm'
    obtain ⟨e, he, rfl⟩ := List.mem_map.1 hcm'
    exact hev e.2.vals (List.mem_map.2 ⟨e, (List.mem_filter.1 he).1, rfl⟩)
  obtain ⟨t, ht⟩ : ∃ t, t = common ((chosen d).map fun e => e.2.dtype) := ⟨_, rfl⟩
  rw [← ht] at hv
  obtain ⟨r, hr⟩ : ∃ r : Ds V T, r =
      { cols := (header, ⟨.text, false, tt, (chosen d).keys.map ofText⟩) ::
          ((newNames text d).zip ((List.range n).map (rowOf m))).map fun e => (e.1, ⟨.num, true, t, e.2⟩), labels := [header] } := ⟨_, rfl⟩
  rw [← hr] at hv
  have hlen1 : (newNames text d).length = n := by rw [hnm]; simp [hrows]
  have hch : chosen r = ((newNames text d).zip ((List.range n).map (rowOf m))).map fun e => (e.1, ⟨.num, true, t, e.2⟩) := by
    rw [hr]
    simp only [chosen]
    rw [List.filter_cons_of_neg (by simp), List.filter_eq_self]
    intro e he
    obtain ⟨x, hx, rfl⟩ := List.mem_map.1 he
    have hx1 : x.1 ∈ newNames text d := (List.of_mem_zip (show (x.1, x.2) ∈ _ from hx)).1
    have : x.1 ≠ header := by
      intro h; rw [h] at hx1; exact (List.nodup_cons.1 hnd1).1 hx1
    simp [this]
  have hch2 : ((chosen r).map fun e => e.2.vals) = (List.range n).map (rowOf m) := by
    rw [hch, List.map_map]
    have : ((fun e : String × Col V T => e.2.vals) ∘ fun e : String × List V => (e.1, (⟨.num, true, t, e.2⟩ : Col V T))) = Prod.snd := by
      funext e; rfl
    rw [this, List.map_snd_zip (by simp [hlen1])]
  have hchne : chosen r ≠ [] := by
    intro h
    rw [h] at hch2
    have := congrArg List.length hch2
    simp at this
    omega
  have hrr : nrows r = (chosen d).length := by
    rw [hr]; simp [nrows, Dict.keys]
  have hnm2 : newNames text r = (chosen d).keys := by
    have hg : r.cols.get header = some ⟨.text, false, tt, (chosen d).keys.map ofText⟩ := by rw [hr, Dict.get_cons]; simp
    have hlab : r.labels = [header] := by rw [hr]
    unfold newNames
    rw [hlab]
    simp only [List.foldl_nil, hg, Option.elim_some, List.map_map]
    have : text ∘ ofText = id := by funext s; exact htext s
    rw [this, List.map_id]
  have hknd : (chosen d).keys.Nodup := by
    have hsub : (chosen d).keys.Sublist d.cols.keys := List.Sublist.map _ List.filter_sublist
    exact hnd.sublist hsub
  obtain ⟨rr, h1, _, h3, _, h5⟩ := transpose_partial common cast text ofText tt header r hchne
    (by rw [hnm2, hrr]; simp [Dict.keys]) (by rw [hnm2, List.nodup_cons]; exact ⟨hhc, hknd⟩)
  rw [hnm2] at h3 h5
  refine ⟨r, rr, hv, h1, h3, ?_⟩
  intro k c hk hcomp
  have hmem : (k, c) ∈ chosen d := List.mem_filter.2 ⟨Dict.mem_of_get hk, by simp [hcomp, hl]⟩
  obtain ⟨j, hj, hjg⟩ := List.mem_iff_getElem.1 hmem
  have hcm2 : ((chosen r).map fun e => e.2.vals.map (cast (common ((chosen r).map fun e => e.2.dtype)))) = (List.range n).map (rowOf m) := by
    rw [← hch2]
    apply List.map_congr_left
    intro e _
    conv_rhs => rw [← List.map_id e.2.vals]
    exact List.map_congr_left fun v _ => hcast _ v
  obtain ⟨c', hc', hvals⟩ := h5 j k (by simp [Dict.keys, List.getElem?_eq_getElem hj, hjg])
  rw [hcm2, rows_rows m n hme j c.vals (by rw [hm]; simp [List.getElem?_eq_getElem hj, hjg])] at hvals
  refine ⟨c', hc', ?_, hvals⟩
  have hvv := transpose_value common cast text ofText tt header r hchne (by rw [hnm2, hrr]; simp [Dict.keys])
    (by rw [hnm2, List.nodup_cons]; exact ⟨hhc, hknd⟩)
  rw [h1] at hvv
  have hrrv := Except.ok.inj hvv
  have hmemc := Dict.mem_of_get hc'
  rw [hrrv] at hmemc
  rcases List.mem_cons.1 hmemc with h | h
  · exfalso
    have : k = header := congrArg Prod.fst h
    exact hhc (by rw [← this]; exact List.mem_map.2 ⟨_, hmem, rfl⟩)
  · obtain ⟨x, _, hx⟩ := List.mem_map.1 h
    have := congrArg (fun e => e.2.comp) hx
    exact this.symm

/-! ## Cases -/

/-- entries: numbers, or texts -/
inductive Cell
  | num (v : Int)
  | txt (s : String)
deriving DecidableEq

/-- the text of an entry -/
def Cell.text : Cell → String
  | .num v => toString v
  | .txt s => s

/-- a table of two columns and three rows -/
def grid : Ds Cell Bool :=
  { cols := [("x", ⟨.num, true, false, [.num 1, .num 2, .num 3]⟩), ("y", ⟨.num, true, false, [.num 4, .num 5, .num 6]⟩)], labels := [] }

example : transpose anyFloat (fun _ v => v) Cell.text .txt false "Col" grid = .ok
    { cols := [("Col", ⟨.text, false, false, [.txt "x", .txt "y"]⟩), ("C0", ⟨.num, true, false, [.num 1, .num 4]⟩),
               ("C1", ⟨.num, true, false, [.num 2, .num 5]⟩), ("C2", ⟨.num, true, false, [.num 3, .num 6]⟩)], labels := ["Col"] } := by
  decide +kernel

/-- the hypotheses of the round trip hold for it -/
example : Even (grid.cols.map fun e => e.2.vals) 3 ∧ chosen grid ≠ [] ∧ grid.labels = [] ∧ grid.cols.keys.Nodup ∧
    "Col" ∉ (chosen grid).keys ∧ ∀ s, Cell.text (.txt s) = s := by
  refine ⟨?_, by decide, rfl, by decide, by decide, fun _ => rfl⟩
  unfold Even
  decide

/-- **C92, counterexample.** Two rows with the same label: one of them is lost. -/
theorem transpose_equal_labels_counterexample :
    transpose anyFloat (fun _ v => v) Cell.text .txt false "Col"
      { cols := [("k", ⟨.text, false, false, [.txt "a", .txt "a"]⟩), ("x", ⟨.num, true, false, [.num 1, .num 2]⟩)], labels := ["k"] }
    = .ok { cols := [("Col", ⟨.text, false, false, [.txt "x"]⟩), ("a", ⟨.num, true, false, [.num 2]⟩)], labels := ["Col"] } := by
  decide +kernel

/-- **C92, counterexample.** A row labelled `Col` takes the place of the names of the columns. -/
theorem transpose_header_counterexample :
    transpose anyFloat (fun _ v => v) Cell.text .txt false "Col"
      { cols := [("k", ⟨.text, false, false, [.txt "Col"]⟩), ("x", ⟨.num, true, false, [.num 1]⟩)], labels := ["k"] }
    = .ok { cols := [("Col", ⟨.num, true, false, [.num 1]⟩)], labels := ["Col"] } := by
  decide +kernel

/-- **C92, counterexample.** Two labels joined by `_` can give one name for different rows. -/
theorem transpose_joined_counterexample :
    transpose anyFloat (fun _ v => v) Cell.text .txt false "Col"
      { cols := [("k", ⟨.text, false, false, [.txt "a_b", .txt "a"]⟩), ("l", ⟨.text, false, false, [.txt "c", .txt "b_c"]⟩),
                 ("x", ⟨.num, true, false, [.num 1, .num 2]⟩)], labels := ["k", "l"] }
    = .ok { cols := [("Col", ⟨.text, false, false, [.txt "x"]⟩), ("a_b_c", ⟨.num, true, false, [.num 2]⟩)], labels := ["Col"] } := by
  decide +kernel

end Verif.Reduce
