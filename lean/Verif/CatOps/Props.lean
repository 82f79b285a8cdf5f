import Verif.CatOps.Compare
import Verif.Arr.Props
/-!
# C97-C100: assigning Categoricals, mapping categories, one-hot encoding, shifting
-/
namespace Verif.CatOps
open Verif.Cat

variable {L W : Type}

/-! ## C97: assignment -/

theorem foldl_set_length {A : Type} : ∀ (es : List (Nat × A)) (fa : List A), (es.foldl (fun a e => a.set e.1 e.2) fa).length = fa.length
  | [], _ => rfl
  | e :: es, fa => by rw [List.foldl_cons, foldl_set_length es]; simp

theorem foldl_set_get {A : Type} (es : List (Nat × A)) (hn : (es.map Prod.fst).Nodup) : ∀ (fa : List A), (∀ e ∈ es, e.1 < fa.length) →
    (∀ i, i ∉ es.map Prod.fst → (es.foldl (fun a e => a.set e.1 e.2) fa)[i]? = fa[i]?) ∧
      ∀ e ∈ es, (es.foldl (fun a e => a.set e.1 e.2) fa)[e.1]? = some e.2 := by
  induction es with
  | nil => exact fun fa _ => ⟨fun _ _ => rfl, by simp⟩
  | cons e es ih =>
    intro fa hlt
    rw [List.map_cons, List.nodup_cons] at hn
    obtain ⟨h1, h2⟩ := ih hn.2 (fa.set e.1 e.2) (fun e' he' => by simpa using hlt e' (by simp [he']))
    refine ⟨fun i hi => ?_, fun e' he' => ?_⟩
    · simp only [List.map_cons, List.mem_cons, not_or] at hi
      rw [List.foldl_cons, h1 i hi.2, List.getElem?_set_ne (fun h => hi.1 h.symm)]
    · rcases List.mem_cons.1 he' with rfl | hm
      · rw [List.foldl_cons, h1 _ hn.1]
        simp [hlt e' (by simp)]
      · exact h2 e' hm

theorem map_replaced {A B : Type} (f : A → B) (fa : List A) (ps : List Nat) (vals : List A) (hn : ps.Nodup) (hlt : ∀ p ∈ ps, p < fa.length)
    (hl : vals.length = ps.length) :
    Replaced (fa.map f) (((ps.zip vals).foldl (fun a e => a.set e.1 e.2) fa).map f) ps (vals.map f) := by
  have hf : (ps.zip vals).map Prod.fst = ps := List.map_fst_zip (by omega)
  obtain ⟨h1, h2⟩ := foldl_set_get (ps.zip vals) (by rw [hf]; exact hn) fa (fun e he => hlt _ (List.of_mem_zip he).1)
  rw [hf] at h1
  refine ⟨by simp [foldl_set_length], fun i hi => by rw [List.getElem?_map, h1 i hi, List.getElem?_map], fun k hk => ?_⟩
  have hv : k < vals.length := by omega
  refine ⟨ps[k], List.getElem?_eq_getElem hk, ?_⟩
  have hm : (ps[k], vals[k]) ∈ ps.zip vals := by
    rw [List.mem_iff_getElem?]
    exact ⟨k, by rw [List.getElem?_zip_eq_some]; exact ⟨List.getElem?_eq_getElem hk, List.getElem?_eq_getElem hv⟩⟩
  rw [List.getElem?_map, h2 _ hm, List.getElem?_map, List.getElem?_eq_getElem hv]

/-- **C97** Assigning a Categorical with the same categories and base index: the chosen rows get, in order, the labels of its rows,
the other rows and the categories stay. -/
theorem assign_partial (crc : List L → Nat) (hcrc : ∀ a b : List L, a.length = b.length → crc a = crc b → a = b) (toInt : L → Option Int)
    (filtered : L) (c d : C L) (hsame : d.labels = c.labels) (hbase : d.base = c.base) (ps : List Nat) (hn : ps.Nodup)
    (hlt : ∀ p ∈ ps, p < c.codes.length) (hl : d.codes.length = ps.length) :
    ∃ r, setCat crc toInt filtered c d ps = .ok r ∧ r.labels = c.labels ∧ r.base = c.base ∧ Replaced c.rows r.rows ps d.rows := by
  refine ⟨{ c with codes := (ps.zip d.codes).foldl (fun a e => a.set e.1 e.2) c.codes }, ?_, rfl, rfl, ?_⟩
  · simp [setCat, categoriesEqual, hsame, putRows, hl, Except.map]
  · have := map_replaced (label? c.base c.labels) c.codes ps d.codes hn hlt hl
    unfold C.rows
    rw [hsame, hbase]
    exact this

/-- **C97** If the categories differ and a label is not a number, an exception is raised. -/
theorem assign_other_raises (crc : List L → Nat) (toInt : L → Option Int) (filtered : L) (c d : C L)
    (hne : categoriesEqual crc c d = false) (r : Option L) (hr : r ∈ c.rows) (hno : toInt (r.getD filtered) = none) (ps : List Nat) :
    setCat crc toInt filtered c d ps = .error .value := by
  have : c.rows.mapM (fun (r : Option L) => toInt (r.getD filtered)) = none := by
    generalize c.rows = l at hr
    induction l with
    | nil => simp at hr
    | cons a l ih =>
      rcases List.mem_cons.1 hr with rfl | hm
      · simp [hno]
      · rw [List.mapM_cons, ih hm]
        cases toInt (a.getD filtered) <;> rfl
  simp [setCat, hne, this]

/-- **C97** If the categories differ, nothing of the assigned Categorical arrives: two Categoricals with categories that differ from
those of `c` do the same. -/
theorem assign_other_ignored (crc : List L → Nat) (toInt : L → Option Int) (filtered : L) (c d d' : C L)
    (hne : categoriesEqual crc c d = false) (hne' : categoriesEqual crc c d' = false) (ps : List Nat) :
    setCat crc toInt filtered c d ps = setCat crc toInt filtered c d' ps := by simp [setCat, hne, hne']

/-- Full statement fails: with numbers as categories the labels of the Categorical itself are written as codes, silently. -/
theorem assign_numbers_counterexample : ∃ (c d : C Int) (ps : List Nat) (r : C Int), c.WF ∧ d.WF ∧ ps.Nodup ∧ d.codes.length = ps.length ∧
    setCat (fun l => (l.map Int.toNat).sum) some (-1) c d ps = .ok r ∧ ¬ Replaced c.rows r.rows ps d.rows := by
  refine ⟨⟨1, [1, 2], [2, 1]⟩, ⟨1, [1, 1], [7]⟩, [0, 1], ⟨1, [2, 1], [2, 1]⟩, ⟨by decide, by decide, by decide, by decide⟩,
    ⟨by decide, by decide, by decide, by decide⟩, by decide, rfl, by decide, fun h => ?_⟩
  obtain ⟨p, hp, he⟩ := h.2.2 0 (by decide)
  simp at hp
  subst hp
  simp [C.rows, label?] at he

/-- Full statement fails: same categories, different base index, all labels are off by one. -/
theorem assign_base_counterexample : ∃ (c d : C Nat) (ps : List Nat) (r : C Nat), c.WF ∧ d.WF ∧ c.labels = d.labels ∧
    setCat (fun l => l.sum) (fun _ => none) 0 c d ps = .ok r ∧ ¬ Replaced c.rows r.rows ps d.rows := by
  refine ⟨⟨1, [1, 2], [5, 6]⟩, ⟨0, [1], [5, 6]⟩, [0], ⟨1, [1, 2], [5, 6]⟩, ⟨by decide, by decide, by decide, by decide⟩,
    ⟨by decide, by decide, by decide, by decide⟩, rfl, by decide, fun h => ?_⟩
  obtain ⟨p, hp, he⟩ := h.2.2 0 (by decide)
  simp at hp
  subst hp
  simp [C.rows, label?] at he

/-! ## C98: mapping -/

theorem expand_get (f : W) (c : C W) (i : Nat) (k : Int) (h : c.codes[i]? = some k) :
    (expand f c)[i]? = some ((label? c.base c.labels k).getD f) := by
  simp [expand, C.rows, h]

theorem filterMap_some_get {A B : Type} (f : A → Option B) (l : List A) : (∀ a ∈ l, ∃ b, f a = some b) → ∀ (k : Nat) (a : A),
    l[k]? = some a → (l.filterMap f)[k]? = f a := by
  induction l with
  | nil => intro _ k a h; simp at h
  | cons x l ih =>
    intro hf k a h
    obtain ⟨b, hb⟩ := hf x (by simp)
    rw [List.filterMap_cons_some hb]
    cases k with
    | zero => simp at h; subst h; simp [hb]
    | succ k =>
      rw [List.getElem?_cons_succ] at h ⊢
      exact ih (fun a ha => hf a (by simp [ha])) k a h

theorem position_pos [DecidableEq L] (keys : List L) (x : L) : position keys x = 0 ↔ x ∉ keys := by
  unfold position
  split <;> simp_all

theorem position_value [DecidableEq L] (mapper : List (L × W)) (x : L) (hx : x ∈ mapper.map Prod.fst) :
    (mapper.map Prod.snd)[position (mapper.map Prod.fst) x - 1]? = value? mapper x := by
  unfold position value?
  rw [if_pos hx, Nat.add_sub_cancel]
  induction mapper with
  | nil => simp at hx
  | cons e m ih =>
    simp only [List.map_cons]
    by_cases h : e.1 = x
    · simp [h]
    · rw [List.idxOf_cons_ne _ h, List.getElem?_cons_succ]
      have hx' : x ∈ m.map Prod.fst := by
        rcases List.mem_cons.1 hx with hh | hh
        · exact absurd hh.symm h
        · exact hh
      rw [ih hx']
      simp [h]

theorem value?_none [DecidableEq L] (mapper : List (L × W)) (x : L) : value? mapper x = none ↔ x ∉ mapper.map Prod.fst := by
  simp only [value?, Option.map_eq_none_iff, List.find?_eq_none, decide_eq_true_eq, List.mem_map, not_exists, not_and]

/-- **C98** `map` with a dictionary, for all Categoricals: which value every row gets. Rows with a label that is a key get the value of
the key. If some category is no key, the rows with other labels and, unless the name of the filtered rows is a key, the filtered rows
get `invalid`; if all categories are keys the filtered rows get the default, whatever `invalid` is. -/
theorem mapDict_exact [DecidableEq L] (filtered : L) (df : Defaults W) (c : C L) (hw : c.WF) (mapper : List (L × W)) (invalid : Option W)
    (inv : W) (hinv : invalid.or df.invalid = some inv) :
    ∃ m, mapDict filtered df c mapper invalid = .ok m ∧ m.length = c.codes.length ∧ ∀ (i : Nat) (r : Option L), c.rows[i]? = some r →
      m[i]? = some (if ∀ l ∈ c.labels, l ∈ mapper.map Prod.fst then (r.bind (value? mapper)).getD df.filtered
        else (value? mapper (r.getD filtered)).getD inv) := by
  by_cases hall : ∀ l ∈ c.labels, l ∈ mapper.map Prod.fst
  · have hno : ((c.labels.map fun (l : L) => position (mapper.map Prod.fst) l).any fun i => decide (i = 0)) = false := by
      rw [List.any_eq_false]
      intro i hi
      obtain ⟨l, hl, rfl⟩ := List.mem_map.1 hi
      simp only [decide_eq_true_eq, position_pos]
      exact fun h => h (hall l hl)
    refine ⟨expand df.filtered ⟨c.base, c.codes, (c.labels.map fun (l : L) => position (mapper.map Prod.fst) l).filterMap
      fun i => (mapper.map Prod.snd)[i - 1]?⟩, by unfold mapDict; simp only [hno]; rfl, by simp [expand, C.rows], fun i r hr => ?_⟩
    unfold C.rows at hr
    rw [List.getElem?_map, Option.map_eq_some_iff] at hr
    obtain ⟨k, hk, rfl⟩ := hr
    rw [expand_get df.filtered ⟨c.base, c.codes, _⟩ i k hk, if_pos hall]
    congr 1
    have h1 := hw.hi k (List.mem_of_getElem? hk)
    unfold label?
    simp only
    by_cases hz : k < c.base
    · rw [if_pos hz, if_pos hz]; rfl
    · rw [if_neg hz, if_neg hz]
      have hlt : (k - c.base).toNat < c.labels.length := by omega
      have hl := List.getElem?_eq_getElem hlt
      have hmem := hall _ (List.getElem_mem hlt)
      rw [hl, Option.bind_some, filterMap_some_get _ _ ?_ (k - c.base).toNat (position (mapper.map Prod.fst) c.labels[(k - c.base).toNat]) (by rw [List.getElem?_map, hl]; rfl),
        position_value mapper _ hmem]
      intro p hp
      obtain ⟨l, hlm, rfl⟩ := List.mem_map.1 hp
      have hm := hall l hlm
      cases hv : value? mapper l with
      | none => exact absurd hm ((value?_none mapper l).1 hv)
      | some w => exact ⟨w, by rw [position_value mapper l hm, hv]⟩
  · have hyes : ((c.labels.map fun (l : L) => position (mapper.map Prod.fst) l).any fun i => decide (i = 0)) = true := by
      rw [List.any_eq_true]
      push Not at hall
      obtain ⟨l, hl, hn⟩ := hall
      exact ⟨_, List.mem_map.2 ⟨l, hl, rfl⟩, by simpa using (position_pos _ _).2 hn⟩
    refine ⟨expand inv ⟨1, (expand filtered c).map fun (l : L) => (position (mapper.map Prod.fst) l : Int), mapper.map Prod.snd⟩,
      by unfold mapDict; simp only [hyes, if_true, hinv], by simp [expand, C.rows], fun i r hr => ?_⟩
    have he : (expand filtered c)[i]? = some (r.getD filtered) := by rw [expand, List.getElem?_map, hr]; rfl
    rw [expand_get _ _ i ((position (mapper.map Prod.fst) (r.getD filtered) : Int)) (by simp only [List.getElem?_map, he]; rfl), if_neg hall]
    congr 1
    simp only [label?]
    by_cases hm : (r.getD filtered) ∈ mapper.map Prod.fst
    · have hp : position (mapper.map Prod.fst) (r.getD filtered) ≠ 0 := fun h => (position_pos _ _).1 h hm
      rw [if_neg (by omega), ← position_value mapper _ hm]
      congr 2
      omega
    · have hp := (position_pos _ _).2 hm
      rw [if_pos (by omega), (value?_none mapper _).2 hm]

/-- **C98** `map` with a dictionary gives every labelled row the value of its label, and `invalid` where there is none or the row is
filtered, if some category is no key of the dictionary and the name of filtered rows is none either. -/
theorem mapDict_missing [DecidableEq L] (filtered : L) (df : Defaults W) (c : C L) (hw : c.WF) (mapper : List (L × W)) (invalid : Option W)
    (inv : W) (hinv : invalid.or df.invalid = some inv) (hmiss : ∃ l ∈ c.labels, l ∉ mapper.map Prod.fst) (hf : filtered ∉ mapper.map Prod.fst) :
    ∃ m, mapDict filtered df c mapper invalid = .ok m ∧ m.length = c.codes.length ∧ ∀ (i : Nat) (r : Option L), c.rows[i]? = some r →
      m[i]? = some ((r.bind (value? mapper)).getD inv) := by
  obtain ⟨m, e, hl, h⟩ := mapDict_exact filtered df c hw mapper invalid inv hinv
  refine ⟨m, e, hl, fun i r hr => ?_⟩
  rw [h i r hr, if_neg (fun hall => by obtain ⟨l, h1, h2⟩ := hmiss; exact h2 (hall l h1))]
  cases r with
  | none => simp [(value?_none mapper filtered).2 hf]
  | some l => rfl

/-- **C98** `map` with a dictionary of all categories gives every labelled row the value of its label. -/
theorem mapDict_full_partial [DecidableEq L] (filtered : L) (df : Defaults W) (c : C L) (hw : c.WF) (mapper : List (L × W)) (invalid : Option W)
    (inv : W) (hinv : invalid.or df.invalid = some inv) (hall : ∀ l ∈ c.labels, l ∈ mapper.map Prod.fst) :
    ∃ m, mapDict filtered df c mapper invalid = .ok m ∧ ∀ (i : Nat) (l : L), c.rows[i]? = some (some l) → m[i]? = value? mapper l := by
  obtain ⟨m, e, _, h⟩ := mapDict_exact filtered df c hw mapper invalid inv hinv
  refine ⟨m, e, fun i l hr => ?_⟩
  rw [h i _ hr, if_pos hall, Option.bind_some]
  unfold C.rows at hr
  rw [List.getElem?_map, Option.map_eq_some_iff] at hr
  obtain ⟨k, hk, hk'⟩ := hr
  have hm : l ∈ c.labels := by
    unfold label? at hk'
    split at hk'
    · cases hk'
    · exact List.mem_of_getElem? hk'
  cases hv : value? mapper l with
  | none => exact absurd (hall l hm) ((value?_none mapper l).1 hv)
  | some w => rfl

/-- Full statement fails: with a dictionary of all categories the argument `invalid` is ignored. -/
theorem mapDict_invalid_counterexample : ∃ (c : C Nat) (mapper : List (Nat × Int)), c.WF ∧ c.rows[0]? = some none ∧
    mapDict 0 ⟨-128, some (-128)⟩ c mapper (some 5) = .ok [-128, 10] :=
  ⟨⟨1, [0, 1], [7]⟩, [(7, 10)], ⟨by decide, by decide, by decide, by decide⟩, by decide, by decide⟩

/-- Full statement fails: a key that is the name of filtered rows, or of a category that does not exist, catches the filtered rows,
but only if some other category is no key. -/
theorem mapDict_filtered_counterexample : ∃ (c : C Nat) (mapper mapper' : List (Nat × Int)), c.WF ∧ c.rows[0]? = some none ∧
    mapDict 0 ⟨-128, some (-128)⟩ c mapper none = .ok [33, 10, -128] ∧
    mapDict 0 ⟨-128, some (-128)⟩ c mapper' none = .ok [-128, 10, 11] :=
  ⟨⟨1, [0, 1, 2], [7, 8]⟩, [(7, 10), (0, 33)], [(7, 10), (8, 11), (0, 33)], ⟨by decide, by decide, by decide, by decide⟩, by decide,
    by decide, by decide⟩

/-- **C98** `map` with an array of one value per category: the value of the category, `invalid` for filtered rows. -/
theorem mapArray_exact (df : Defaults W) (c : C L) (hw : c.WF) (mapper : List W) (hl : mapper.length = c.labels.length) (invalid : Option W)
    (inv : W) (hinv : invalid.or df.invalid = some inv) :
    ∃ m, mapArray df c mapper invalid = .ok m ∧ m.length = c.codes.length ∧ ∀ (i : Nat) (k : Int), c.codes[i]? = some k →
      (∀ l, label? c.base c.labels k = some l → ∃ (j : Nat), c.labels[j]? = some l ∧ m[i]? = mapper[j]?) ∧
      (label? c.base c.labels k = none → m[i]? = some inv) := by
  have key : ∀ f : W, (c.base = 1 → f = inv) → ∀ (i : Nat) (k : Int), c.codes[i]? = some k →
      (∀ l, label? c.base c.labels k = some l → ∃ (j : Nat), c.labels[j]? = some l ∧ (expand f ⟨c.base, c.codes, mapper⟩)[i]? = mapper[j]?) ∧
      (label? c.base c.labels k = none → (expand f ⟨c.base, c.codes, mapper⟩)[i]? = some inv) := by
    intro f hf i k hk
    rw [expand_get f ⟨c.base, c.codes, mapper⟩ i k hk]
    have h0 := hw.lo k (List.mem_of_getElem? hk)
    have h1 := hw.hi k (List.mem_of_getElem? hk)
    have hb := hw.base
    unfold label?
    by_cases hz : k < c.base
    · rw [if_pos hz]
      exact ⟨by simp, fun _ => by rw [if_pos hz, hf (by omega)]; rfl⟩
    · rw [if_neg hz]
      have hlt : (k - c.base).toNat < mapper.length := by omega
      refine ⟨fun l hl' => ⟨_, hl', by rw [if_neg hz, List.getElem?_eq_getElem hlt]; rfl⟩, fun hn => ?_⟩
      rw [List.getElem?_eq_none_iff] at hn
      omega
  by_cases h1 : c.base = 1
  · exact ⟨_, by unfold mapArray; rw [if_neg (by simp [hl]), if_pos h1, hinv], by simp [expand, C.rows], key inv fun _ => rfl⟩
  · exact ⟨_, by unfold mapArray; rw [if_neg (by simp [hl]), if_neg h1], by simp [expand, C.rows], key df.filtered fun h => absurd h h1⟩

/-- **C98** An array of another length raises. -/
theorem mapArray_raises (df : Defaults W) (c : C L) (mapper : List W) (invalid : Option W) (h : mapper.length ≠ c.labels.length) :
    mapArray df c mapper invalid = .error .value := by simp [mapArray, h]

/-- Full statement fails: mapping to bools raises with an array although no row is filtered, unless `invalid` is given. -/
theorem mapArray_bool_counterexample : ∃ (c : C Nat) (mapper : List Bool), c.WF ∧ none ∉ c.rows ∧ mapper.length = c.labels.length ∧
    mapArray ⟨false, none⟩ c mapper none = .error .type :=
  ⟨⟨1, [1, 2], [7, 8]⟩, [true, false], ⟨by decide, by decide, by decide, by decide⟩, by decide, rfl, by decide⟩

/-! ## one-hot -/

/-- **C99** One-hot encoding: the names are the categories, and array `j` has a 1 exactly in the rows of category `j`. -/
theorem oneHot_exact (c : C L) (hw : c.WF) :
    (oneHot c).1 = c.labels ∧ (oneHot c).2.length = c.labels.length ∧ ∀ (j : Nat) (l : L), c.labels[j]? = some l →
      ∃ col, (oneHot c).2[j]? = some col ∧ col.length = c.codes.length ∧
        ∀ (i : Nat) (r : Option L), c.rows[i]? = some r → ∃ b, col[i]? = some b ∧ (b = true ↔ r = some l) := by
  refine ⟨rfl, by simp [oneHot], fun j l hj => ?_⟩
  have hlt := (List.getElem?_eq_some_iff.1 hj).1
  refine ⟨c.codes.map fun (k : Int) => decide (k = (j : Int) + c.base), by simp [oneHot, hlt], by simp, fun i r hr => ?_⟩
  unfold C.rows at hr
  rw [List.getElem?_map, Option.map_eq_some_iff] at hr
  obtain ⟨k, hk, rfl⟩ := hr
  refine ⟨_, by rw [List.getElem?_map, hk]; rfl, ?_⟩
  rw [decide_eq_true_eq]
  have h1 := hw.hi k (List.mem_of_getElem? hk)
  unfold label?
  constructor
  · rintro rfl
    rw [if_neg (by omega), show ((j : Int) + c.base - c.base).toNat = j by omega, hj]
  · intro h
    by_cases hz : k < c.base
    · rw [if_pos hz] at h; cases h
    · rw [if_neg hz] at h
      have hk2 : (k - c.base).toNat < c.labels.length := by omega
      have : (k - c.base).toNat = j := by
        rw [List.getElem?_eq_getElem hk2] at h
        rw [List.getElem?_eq_getElem hlt] at hj
        have := (h.trans hj.symm)
        exact (List.Nodup.getElem_inj_iff hw.nodup).1 (Option.some.inj this)
      omega

/-- the number of ones of row `i` -/
def ones (cols : List (List Bool)) (i : Nat) : Nat := (cols.filter fun col => col[i]? == some true).length

theorem filter_one {A : Type} (l : List A) (p : A → Bool) (j : Nat) (hj : j < l.length) (h : ∀ (k : Nat) (a : A), l[k]? = some a → (p a = true ↔ k = j)) :
    (l.filter p).length = 1 := by
  induction l generalizing j with
  | nil => simp at hj
  | cons a l ih =>
    cases j with
    | zero =>
      have ha : p a = true := (h 0 a rfl).2 rfl
      have hn : l.filter p = [] := List.filter_eq_nil_iff.2 fun b hb => by
        obtain ⟨k, hk⟩ := List.mem_iff_getElem?.1 hb
        intro hp
        have := (h (k + 1) b (by simpa using hk)).1 hp
        omega
      simp [List.filter_cons_of_pos ha, hn]
    | succ j =>
      have ha : ¬ p a = true := fun hp => by have := (h 0 a rfl).1 hp; omega
      rw [List.filter_cons_of_neg ha]
      exact ih j (by simpa using hj) fun k b hk => by
        rw [h (k + 1) b (by simpa using hk)]; omega

/-- **C99** Every labelled row has one 1, every filtered row none. -/
theorem oneHot_once (c : C L) (hw : c.WF) (i : Nat) (r : Option L) (hr : c.rows[i]? = some r) :
    ones (oneHot c).2 i = if r.isSome then 1 else 0 := by
  obtain ⟨_, hlen, h⟩ := oneHot_exact c hw
  have hcol : ∀ (k : Nat) (col : List Bool), (oneHot c).2[k]? = some col → ∃ l, c.labels[k]? = some l ∧ ((col[i]? == some true) = true ↔ r = some l) := by
    intro k col hk
    have hlt : k < c.labels.length := by rw [← hlen]; exact (List.getElem?_eq_some_iff.1 hk).1
    obtain ⟨col', h1, _, h2⟩ := h k _ (List.getElem?_eq_getElem hlt)
    rw [hk] at h1
    obtain rfl := Option.some.inj h1
    obtain ⟨b, hb, hiff⟩ := h2 i r hr
    refine ⟨_, List.getElem?_eq_getElem hlt, ?_⟩
    rw [hb, ← hiff]
    simp
  cases r with
  | none =>
    have : (oneHot c).2.filter (fun col => col[i]? == some true) = [] := List.filter_eq_nil_iff.2 fun col hc => by
      obtain ⟨k, hk⟩ := List.mem_iff_getElem?.1 hc
      obtain ⟨l, _, hi⟩ := hcol k col hk
      rw [hi]; simp
    simp [ones, this]
  | some l =>
    have hmem : l ∈ c.labels := by
      unfold C.rows at hr
      rw [List.getElem?_map, Option.map_eq_some_iff] at hr
      obtain ⟨k, _, hk⟩ := hr
      unfold label? at hk
      split at hk
      · cases hk
      · exact List.mem_of_getElem? hk
    obtain ⟨j, hj⟩ := List.mem_iff_getElem?.1 hmem
    have hjl := (List.getElem?_eq_some_iff.1 hj).1
    refine (filter_one _ _ j (by rw [hlen]; exact hjl) fun k col hk => ?_)
    obtain ⟨l', hl', hi⟩ := hcol k col hk
    rw [hi]
    have hkl := (List.getElem?_eq_some_iff.1 hl').1
    constructor
    · intro he
      have he' := Option.some.inj he
      subst he'
      rw [List.getElem?_eq_getElem hjl] at hj
      rw [List.getElem?_eq_getElem hkl] at hl'
      exact (List.Nodup.getElem_inj_iff hw.nodup).1 (Option.some.inj (hl'.trans hj.symm))
    · rintro rfl
      rw [← hl', hj]

/-! ## shifting -/

/-- **C100** With base index 1 `shift_cat` moves the labels, and the rows nothing arrives in are filtered. -/
theorem shiftCat_partial (p : Int) (c : C L) (hb : c.base = 1) (junk : List Int) (hj : junk.length = c.codes.length) :
    ∃ r, shiftCat p c junk = .ok r ∧ r.labels = c.labels ∧ Verif.Arr.Spec.Moved none p c.rows r.rows := by
  obtain ⟨fa, e, hl, hm⟩ := Verif.Arr.shift_exact (0 : Int) p c.codes junk hj
  refine ⟨{ c with codes := fa }, by simp [shiftCat, e, Except.map], rfl, by simp [C.rows, hl], fun i hi => ?_⟩
  have hi' : i < c.codes.length := by simpa [C.rows] using hi
  unfold C.rows
  simp only
  rw [List.getElem?_map, hm i hi', Option.map_some]
  congr 1
  have hent : Verif.Arr.Spec.entry (c.codes.map (label? c.base c.labels)) (i - p) =
      (Verif.Arr.Spec.entry c.codes (i - p)).map (label? c.base c.labels) := by
    unfold Verif.Arr.Spec.entry
    split <;> simp
  rw [hent]
  cases Verif.Arr.Spec.entry c.codes (i - p) with
  | none => simp [label?, hb]
  | some k => rfl

/-- Full statement fails: with base index 0 the rows nothing arrives in get the first category. -/
theorem shiftCat_base_counterexample : ∃ (c r : C Nat), c.WF ∧ shiftCat 1 c [9, 9] = .ok r ∧ r.rows = [some 7, some 8] :=
  ⟨⟨0, [1, 1], [7, 8]⟩, ⟨0, [0, 1], [7, 8]⟩, ⟨by decide, by decide, by decide, by decide⟩, by decide, by decide⟩

/-! ## one key instead of several -/

/-- **C100** `as_singlekey` with base index 1: the rows have the joined labels. -/
theorem asSinglekey_partial (join : L → W) (c : C L) (hb : c.base = 1) : (asSinglekey join c).rows = c.rows.map fun r => r.map join := by
  simp only [asSinglekey, C.rows, List.map_map]
  refine List.map_congr_left fun k _ => ?_
  simp only [Function.comp, label?, hb]
  split <;> simp

/-- **C100** The categories stay different if joining does not make labels equal. -/
theorem asSinglekey_wf_partial (join : L → W) (c : C L) (hw : c.WF) (hb : c.base = 1)
    (hj : ∀ a ∈ c.labels, ∀ b ∈ c.labels, join a = join b → a = b) : (asSinglekey join c).WF :=
  ⟨Nat.le_refl 1, List.Nodup.map_on hj hw.nodup, hw.lo, fun k hk => by
    have := hw.hi k hk
    rw [hb] at this
    simpa [asSinglekey] using this⟩

/-- Full statement fails: labels that contain the separator give two categories of the same name. -/
theorem asSinglekey_joined_counterexample : ∃ c : C (String × String), c.WF ∧ ¬ (asSinglekey (fun p => p.1 ++ "_" ++ p.2) c).labels.Nodup :=
  ⟨⟨1, [1, 2], [("a_b", "c"), ("a", "b_c")]⟩, ⟨by decide, by decide, by decide, by decide⟩, by decide⟩

/-- Full statement fails: with base index 0 all labels are off by one. -/
theorem asSinglekey_base_counterexample : ∃ c : C (String × String), c.WF ∧ c.rows = [some ("a", "b"), some ("c", "d")] ∧
    (asSinglekey (fun p => p.1 ++ "_" ++ p.2) c).rows = [none, some "a_b"] :=
  ⟨⟨0, [0, 1], [("a", "b"), ("c", "d")]⟩, ⟨by decide, by decide, by decide, by decide⟩, by decide, by decide⟩

/-- concrete cases meeting the hypotheses -/
example : setCat (fun l => l.sum) (fun _ => none) 0 (⟨1, [1, 2, 0], [5, 6]⟩ : C Nat) ⟨1, [2, 0], [5, 6]⟩ [0, 1] = .ok ⟨1, [2, 0, 0], [5, 6]⟩ ∧
    mapDict 0 ⟨-128, some (-128)⟩ (⟨1, [1, 2, 0], [5, 6]⟩ : C Nat) [(5, 50)] (some 3) = .ok [50, 3, 3] ∧
    (oneHot (⟨1, [1, 2, 0], [5, 6]⟩ : C Nat)).2 = [[true, false, false], [false, true, false]] ∧
    mapArray ⟨-128, some (-128)⟩ (⟨1, [1, 2, 0], [5, 6]⟩ : C Nat) [50, 60] none = .ok [50, 60, -128] := by decide

end Verif.CatOps
