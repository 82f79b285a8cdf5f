import Verif.Shape.Pivot
import Verif.Merge2.Names
import Mathlib.Data.Fintype.Card
/-!
# `pivot`: theorems, and `pivot` after `melt`
-/
namespace Verif.Shape
open Verif.Items (Dict)
open Verif.Idx (Err Table cell_eq_get)

variable {V : Type}

theorem foldlM_new (t : Table V) (f : List V → Table V) : ∀ (vs : List String) (d : Dict String (Table V)), vs.Nodup →
    (∀ v ∈ vs, v ∈ t.map Prod.fst) → (∀ v ∈ vs, v ∉ Dict.keys d) →
    vs.foldlM (fun (ms : Dict String (Table V)) (v : String) =>
      match Dict.get t v with
      | none => (.error .indexError : Except Err (Dict String (Table V)))
      | some val => .ok (Dict.set ms v (f val))) d =
    .ok (d ++ vs.map fun (v : String) => (v, f ((Dict.get t v).getD []))) := by
  intro vs
  induction vs with
  | nil => intro d _ _ _; simp [pure, Except.pure]
  | cons v vs ih =>
    intro d h1 h2 h3
    rw [List.nodup_cons] at h1
    cases hg : Dict.get t v with
    | none => exact absurd (h2 v List.mem_cons_self) ((Dict.get_eq_none_iff t v).1 hg)
    | some val =>
      rw [List.foldlM_cons, hg]
      simp only [bind, Except.bind]
      rw [ih _ h1.2 (fun v' h => h2 v' (List.mem_cons_of_mem _ h)), Dict.set_of_notMem (h3 v List.mem_cons_self), List.append_assoc,
        List.map_cons, hg]
      · rfl
      · intro v' hv' hmem
        rw [Dict.mem_keys_set] at hmem
        rcases hmem with h | h
        · exact h1.1 (h ▸ hv')
        · exact h3 v' (List.mem_cons_of_mem _ hv') h

/-- the columns `pivot` spreads when none are named -/
def otherCols (names labels columns : List String) : List String := names.filter fun c => decide (c ∉ labels ++ columns)

section
variable (inv : V) (uname : V → String) (group : List String → Grp V) (count0 : Bool) (t : Table V) (n : Nat) (ht : Rect t n)
  (labels columns : List String) (values : Option (List String)) (filter : Option (List Bool)) (R C : Nat)
  (hr : Grouped t n labels (group labels).codes (group labels).uniq R) (hc : Grouped t n columns (group columns).codes (group columns).uniq C)
  (hfr : Full (group labels).codes) (hfc : Full (group columns).codes) (hl : labels ≠ []) (hcn : columns ≠ [])
  (hmem : ∀ c ∈ labels ++ columns, c ∈ t.map Prod.fst)
include hr hc hfr hfc hl hcn hmem

/-- what `pivot` does once its arguments are accepted -/
theorem pivot_eq (hv : values.getD (otherCols (t.map Prod.fst) labels columns) ≠ []) :
    pivot inv uname group count0 t n (some labels) columns values filter =
    if hasDup (binsOf (group labels) (group columns) filter n) (passes filter) count0 then .error .valueError
    else (spread inv uname (group labels) (group columns)
      (ifirst (binsOf (group labels) (group columns) filter n) (((group labels).count + 1) * ((group columns).count + 1))) t
      (values.getD (otherCols (t.map Prod.fst) labels columns))).map wrap := by
  have hall : (labels ++ columns).all (fun (c : String) => Dict.has t c) = true := by
    rw [List.all_eq_true]
    intro c hcm
    rw [Dict.has_iff]; exact hmem c hcm
  have hoth : (Dict.keys t).filter (fun (c : String) => !decide (c ∈ labels ++ columns)) = otherCols (t.map Prod.fst) labels columns := by
    rw [otherCols]
    apply List.filter_congr
    intro c _
    simp only [decide_not]
  simp only [pivot, bind, Except.bind, pure, Except.pure, if_neg hl, if_neg hcn, hoth, if_neg hv, hall, not_true_eq_false, if_false]
  split
  · rfl
  · split
    · rename_i h; rw [h]; rfl
    · rename_i h; rw [h]; rfl

/-- **C75** `pivot`: one row for each of the contents of the label columns, one column for each of the contents of the key columns; every
cell is the value in the one row that holds both, or invalid when there is none. A Dataset for one value column, a Multiset for several.
No two rows that take part may hold the same in label and key columns; the texts of the column keys must be different and not names of label
columns; when the rows removed by a filter are counted, at most one is removed. -/
theorem pivot_wide (ht : Rect t n) (hs : Single t n labels columns filter)
    (h0 : count0 = true → ∀ (i j : Nat), i < n → j < n → ¬ Kept n filter i → ¬ Kept n filter j → i = j)
    (hnames : (labels ++ (contents (group columns).uniq columns C).map (joined uname)).Nodup)
    (vs : List String) (hvs : values.getD (otherCols (t.map Prod.fst) labels columns) = vs) (hv : vs ≠ []) (hvn : vs.Nodup)
    (hvm : ∀ v ∈ vs, v ∈ t.map Prod.fst) :
    ∃ T : String → Table V, (∀ v ∈ vs, IsWide inv t n labels columns filter (contents (group labels).uniq labels R)
      (contents (group columns).uniq columns C) (joined uname) v (T v)) ∧
      ((∃ v, vs = [v] ∧ pivot inv uname group count0 t n (some labels) columns values filter = .ok (.dataset (T v))) ∨
        (vs.length ≠ 1 ∧ pivot inv uname group count0 t n (some labels) columns values filter =
          .ok (.multiset (vs.map fun v => (v, T v))))) := by
  have hnd : hasDup (binsOf (group labels) (group columns) filter n) (passes filter) count0 ≠ true := by
    intro h
    exact (hasDup_iff hr hc hl hfr hfc filter count0).1 h ⟨hs, h0⟩
  refine ⟨fun v => makeDataset inv uname (group columns) ((group labels).count + 1)
            (ifirst (binsOf (group labels) (group columns) filter n) (((group labels).count + 1) * ((group columns).count + 1)))
            ((Dict.get t v).getD []) (group labels).uniq, ?_, ?_⟩
  · intro v hvv
    cases hg : Dict.get t v with
    | none => exact absurd (hvm v hvv) ((Dict.get_eq_none_iff t v).1 hg)
    | some val =>
      have := makeDataset_wide hr hc hl hcn hfr hfc filter inv uname ht hs hnames hg
      dsimp only
      rw [hg]; exact this
  · have hsp : spread inv uname (group labels) (group columns)
        (ifirst (binsOf (group labels) (group columns) filter n) (((group labels).count + 1) * ((group columns).count + 1))) t vs =
        .ok ([] ++ vs.map fun (v : String) => (v, makeDataset inv uname (group columns) ((group labels).count + 1)
            (ifirst (binsOf (group labels) (group columns) filter n) (((group labels).count + 1) * ((group columns).count + 1)))
            ((Dict.get t v).getD []) (group labels).uniq)) :=
      foldlM_new t (fun val => makeDataset inv uname (group columns) ((group labels).count + 1)
            (ifirst (binsOf (group labels) (group columns) filter n) (((group labels).count + 1) * ((group columns).count + 1)))
            val (group labels).uniq) vs [] hvn hvm (by simp [Dict.keys])
    rw [pivot_eq inv uname group count0 t n labels columns values filter R C hr hc hfr hfc hl hcn hmem (by rw [hvs]; exact hv), if_neg hnd, hvs,
      hsp, List.nil_append]
    match vs, hv with
    | [v], _ => exact Or.inl ⟨v, rfl, rfl⟩
    | a :: b :: r, _ => exact Or.inr ⟨by simp, rfl⟩

/-- **C75** Two rows that take part and hold the same in label and key columns make `pivot` raise: no value is dropped silently. -/
theorem pivot_duplicates (hs : ¬ Single t n labels columns filter) (hv : values.getD (otherCols (t.map Prod.fst) labels columns) ≠ []) :
    pivot inv uname group count0 t n (some labels) columns values filter = .error .valueError := by
  rw [pivot_eq inv uname group count0 t n labels columns values filter R C hr hc hfr hfc hl hcn hmem hv, if_pos]
  exact (hasDup_iff hr hc hl hfr hfc filter count0).2 (fun h => hs h.1)

/-- **C75** (disagreement) If the rows removed by a filter are counted (`count0`), removing two rows makes `pivot` raise, whatever they
hold. -/
theorem pivot_filtered_raises (h0 : count0 = true) (i j : Nat) (hi : i < n) (hj : j < n) (hij : i ≠ j) (k1 : ¬ Kept n filter i)
    (k2 : ¬ Kept n filter j) (hv : values.getD (otherCols (t.map Prod.fst) labels columns) ≠ []) :
    pivot inv uname group count0 t n (some labels) columns values filter = .error .valueError := by
  rw [pivot_eq inv uname group count0 t n labels columns values filter R C hr hc hfr hfc hl hcn hmem hv, if_pos]
  exact (hasDup_iff hr hc hl hfr hfc filter count0).2 (fun h => hij (h.2 h0 i j hi hj k1 k2))

end

/-- **C75** (disagreement) `labels` left out never works: the code calls a method that does not exist. -/
theorem pivot_nolabels (inv : V) (uname : V → String) (group : List String → Grp V) (count0 : Bool) (t : Table V) (n : Nat)
    (columns : List String) (values : Option (List String)) (filter : Option (List Bool)) :
    pivot inv uname group count0 t n none columns values filter = .error .attributeError := rfl

/-! ## there and back -/

theorem valueCols_nodup {names ids : List String} (hn : names.Nodup) (vals : Option (List String)) : (valueCols names ids vals).Nodup := by
  cases vals with
  | none => exact hn.filter _
  | some vs => exact Verif.Merge2.nodup_eraseDups_beq _

/-- **C75** `melt` and then `pivot` gives the table back: the rows, told apart by their identifying columns, hold what they held, in the
columns that had been turned into values. -/
theorem pivot_melt (inv : V) (uname : V → String) (str : String → V) (hstr : ∀ s, uname (str s) = s) (group : List String → Grp V)
    (count0 : Bool) (t : Table V) (n : Nat) (hn : 0 < n) (ht : Rect t n) (ids W : List String) (hW : W ≠ []) (hWn : W.Nodup)
    (hne : ids ≠ []) (hidn : ids.Nodup) (hids : ∀ c ∈ ids, c ∈ t.map Prod.fst) (hWm : ∀ c ∈ W, c ∈ t.map Prod.fst) (hdisj : ∀ c ∈ ids, c ∉ W)
    (varName valueName : String)
    (hdist : ∀ (i j : Nat), i < n → j < n → ids.map (fun c => cell t c i) = ids.map (fun c => cell t c j) → i = j)
    (m : Table V) (hm : IsLong str t n ids W varName valueName m) (R C : Nat)
    (hr : Grouped m (W.length * n) ids (group ids).codes (group ids).uniq R)
    (hc : Grouped m (W.length * n) [varName] (group [varName]).codes (group [varName]).uniq C)
    (hfr : Full (group ids).codes) (hfc : Full (group [varName]).codes) (hur : Used (group ids).codes R)
    (huc : Used (group [varName]).codes C) :
    ∃ t', pivot inv uname group count0 m (W.length * n) (some ids) [varName] (some [valueName]) none = .ok (.dataset t') ∧
      (t'.map Prod.fst).Perm (ids ++ W) ∧ Rect t' n ∧
      ∀ (i : Nat), i < n → ∃ r, r < n ∧ ∀ c ∈ ids ++ W, cell t' c r = cell t c i := by
  have split : ∀ (j : Nat), j < W.length * n → ∃ (k i : Nat) (v : String), j = k * n + i ∧ i < n ∧ W[k]? = some v := by
    intro j hj
    have hk : j / n < W.length := by rw [Nat.div_lt_iff_lt_mul hn]; exact hj
    refine ⟨j / n, j % n, W[j / n], ?_, Nat.mod_lt _ hn, List.getElem?_eq_getElem hk⟩
    rw [Nat.mul_comm]; exact (Nat.div_add_mod j n).symm
  have join : ∀ (k i : Nat) (v : String), i < n → W[k]? = some v → k * n + i < W.length * n := by
    intro k i v hi hk
    have : k < W.length := (List.getElem?_eq_some_iff.1 hk).1
    calc k * n + i < k * n + n := by omega
      _ = (k + 1) * n := by rw [Nat.succ_mul]
      _ ≤ W.length * n := Nat.mul_le_mul_right _ (by omega)
  have mid : ∀ (k i : Nat) (v : String), i < n → W[k]? = some v →
      ids.map (fun c => cell m c (k * n + i)) = ids.map (fun c => cell t c i) := by
    intro k i v hi hk
    apply List.map_congr_left
    intro c hcm
    exact hm.id k i v c hk hi hcm
  have hsinj : ∀ a b, str a = str b → a = b := fun a b h => by rw [← hstr a, h, hstr b]
  have hsingle : Single m (W.length * n) ids [varName] none := by
    intro a b ha hb h1 h2
    obtain ⟨k, i, v, rfl, hi, hk⟩ := split a ha.1
    obtain ⟨k', i', v', rfl, hi', hk'⟩ := split b hb.1
    rw [mid k i v hi hk, mid k' i' v' hi' hk'] at h1
    have e1 := hdist i i' hi hi' h1
    simp only [List.map_cons, List.map_nil, List.cons.injEq, and_true] at h2
    rw [hm.var k i v hk hi, hm.var k' i' v' hk' hi'] at h2
    have e2 := hsinj v v' (Option.some.inj h2)
    subst e2; subst e1
    have hlt : k < W.length := (List.getElem?_eq_some_iff.1 hk).1
    have : k = k' := (List.getElem?_inj hlt hWn).1 (by rw [hk, hk'])
    rw [this]
  -- the column keys are the names that were turned into values
  have hckey : ∀ (x : Nat), x < C → ∃ (k : Nat) (v : String), W[k]? = some v ∧ cell (group [varName]).uniq varName x = some (str v) := by
    intro x hx
    obtain ⟨j, hj, hjx⟩ := List.mem_iff_getElem.1 (huc x hx)
    have hjl : j < W.length * n := by
      have := hc.coded.len; rw [contents, List.length_map, List.length_range] at this; omega
    obtain ⟨y, hy1, hy2, hy3⟩ := hc.code_at hfc hjl
    rw [List.getElem?_eq_getElem hj, hjx] at hy1
    have : x = y := by simpa using hy1
    subst this
    obtain ⟨k, i, v, rfl, hi, hk⟩ := split j hjl
    simp only [List.map_cons, List.map_nil, List.cons.injEq, and_true] at hy3
    exact ⟨k, v, hk, by rw [hy3]; exact hm.var k i v hk hi⟩
  have hvkey : ∀ (k : Nat) (v : String), W[k]? = some v → ∃ x, x < C ∧ cell (group [varName]).uniq varName x = some (str v) := by
    intro k v hk
    obtain ⟨y, _, hy2, hy3⟩ := hc.code_at hfc (join k 0 v hn hk)
    simp only [List.map_cons, List.map_nil, List.cons.injEq, and_true] at hy3
    exact ⟨y, hy2, by rw [hy3]; exact hm.var k 0 v hk hn⟩
  have hjoined : ∀ v, joined uname [some (str v)] = v := by
    intro v
    simp only [joined, List.map_cons, List.map_nil, hstr]
    rfl
  have hcont : contents (group [varName]).uniq [varName] C = (List.range C).map fun (x : Nat) => [cell (group [varName]).uniq varName x] := rfl
  have hknd := hc.coded.nodup
  have hcolperm : ((contents (group [varName]).uniq [varName] C).map (joined uname)).Perm W := by
    have hsub : ∀ key ∈ contents (group [varName]).uniq [varName] C, ∃ v, v ∈ W ∧ key = [some (str v)] := by
      intro key hkey
      rw [hcont] at hkey
      obtain ⟨x, hx, rfl⟩ := List.mem_map.1 hkey
      obtain ⟨k, v, h1, h2⟩ := hckey x (List.mem_range.1 hx)
      exact ⟨v, List.mem_of_getElem? h1, by rw [h2]⟩
    rw [List.perm_ext_iff_of_nodup ?_ hWn]
    · intro v
      constructor
      · intro h
        obtain ⟨key, hk1, rfl⟩ := List.mem_map.1 h
        obtain ⟨v, hv, rfl⟩ := hsub key hk1
        rw [hjoined]; exact hv
      · intro h
        obtain ⟨k, hk⟩ := List.mem_iff_getElem?.1 h
        obtain ⟨x, hx, hxv⟩ := hvkey k v hk
        refine List.mem_map.2 ⟨[some (str v)], ?_, hjoined v⟩
        rw [hcont]
        exact List.mem_map.2 ⟨x, List.mem_range.2 hx, by rw [hxv]⟩
    · refine List.Nodup.map_on ?_ hknd
      intro a ha b hb hab
      obtain ⟨v, _, rfl⟩ := hsub a ha
      obtain ⟨v', _, rfl⟩ := hsub b hb
      rw [hjoined, hjoined] at hab
      rw [hab]
  have hmn : m.map Prod.fst = ids ++ [varName, valueName] := hm.names
  have hnodup : (ids ++ (contents (group [varName]).uniq [varName] C).map (joined uname)).Nodup := by
    rw [List.nodup_append]
    refine ⟨hidn, hcolperm.nodup_iff.2 hWn, ?_⟩
    intro a ha b hb hab
    subst hab
    exact hdisj a ha (hcolperm.mem_iff.1 hb)
  obtain ⟨T, hT1, hT2⟩ := pivot_wide inv uname group count0 m (W.length * n) ids [varName] (some [valueName]) none R C hr hc hfr hfc hne
    (by simp) (by rw [hmn]; intro c hc'; simp at hc' ⊢; tauto) hm.rect hsingle
    (by intro _ i j hi _ k1 _; exact absurd ⟨hi, trivial⟩ k1) hnodup [valueName] rfl (by simp) (by simp) (by rw [hmn]; simp)
  obtain ⟨v, hv, hp⟩ := hT2.resolve_right (fun h => h.1 rfl)
  cases hv
  have hwide := hT1 valueName (by simp)
  -- the rows
  have hrow : ∀ (i : Nat), i < n → ∃ r, r < R ∧ ids.map (fun c => cell (group ids).uniq c r) = ids.map (fun c => cell t c i) := by
    intro i hi
    obtain ⟨v, hv⟩ := List.exists_mem_of_ne_nil _ hW
    obtain ⟨k, hk⟩ := List.mem_iff_getElem?.1 hv
    obtain ⟨r, _, h2, h3⟩ := hr.code_at hfr (join k i v hi hk)
    exact ⟨r, h2, by rw [h3, mid k i v hi hk]⟩
  choose f hf using hrow
  have hRn : n = R := by
    have hbij : Function.Bijective (fun (i : Fin n) => (⟨f i.1 i.2, (hf i.1 i.2).1⟩ : Fin R)) := by
      constructor
      · intro a b hab
        have : f a.1 a.2 = f b.1 b.2 := by simpa using hab
        apply Fin.ext
        apply hdist a.1 b.1 a.2 b.2
        rw [← (hf a.1 a.2).2, ← (hf b.1 b.2).2, this]
      · intro x
        obtain ⟨j, hj, hjx⟩ := List.mem_iff_getElem.1 (hur x.1 x.2)
        have hjl : j < W.length * n := by
          have := hr.coded.len; rw [contents, List.length_map, List.length_range] at this; omega
        obtain ⟨y, hy1, hy2, hy3⟩ := hr.code_at hfr hjl
        rw [List.getElem?_eq_getElem hj, hjx] at hy1
        have hxy : x.1 = y := by simpa using hy1
        obtain ⟨k, i, v, rfl, hi, hk⟩ := split j hjl
        refine ⟨⟨i, hi⟩, Fin.ext ?_⟩
        apply hr.uniq_inj (hf i hi).1 x.2
        rw [(hf i hi).2, hxy, hy3, mid k i v hi hk]
    simpa using Fintype.card_of_bijective hbij
  refine ⟨T valueName, hp, ?_, ?_, ?_⟩
  · rw [hwide.names]
    exact List.Perm.append_left ids hcolperm
  · have := hwide.rect
    rw [contents, List.length_map, List.length_range, ← hRn] at this
    exact this
  · intro i hi
    have hrk : (contents (group ids).uniq ids R)[f i hi]? = some (ids.map fun c => cell (group ids).uniq c (f i hi)) := by
      rw [contents_get, if_pos (hf i hi).1]
    refine ⟨f i hi, by rw [hRn]; exact (hf i hi).1, ?_⟩
    intro c hcm
    rcases List.mem_append.1 hcm with hci | hcw
    · have h1 := hwide.label _ _ hrk
      rw [(hf i hi).2, Holds] at h1
      exact List.map_inj_left.1 h1 c hci
    · obtain ⟨k, hk⟩ := List.mem_iff_getElem?.1 hcw
      obtain ⟨x, hx, hxv⟩ := hvkey k c hk
      have hck : (contents (group [varName]).uniq [varName] C)[x]? = some [some (str c)] := by
        rw [contents_get, if_pos hx]
        simp [hxv]
      have h1 := hwide.value (f i hi) x (k * n + i) _ _ hrk hck ⟨join k i c hi hk, trivial⟩ (by rw [Holds, (hf i hi).2]; exact mid k i c hi hk)
        (by simp [Holds, hm.var k i c hk hi])
      rw [hjoined] at h1
      rw [h1]
      exact hm.val k i c hk hi

end Verif.Shape
