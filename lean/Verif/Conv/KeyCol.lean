import Verif.Conv.Model
import Verif.Conv.Dicts

namespace Verif.Conv

/-- the value of a column of a Dataset -/
def DS.get {V : Type} (d : DS V) (n : Name) : Option (Cell V) := (d.cols.find? fun e => decide (e.1 = n)).map Prod.snd

/-- the bytes of a key: the letters of a text, bytes as they are -/
def bytesOf : Key → Option (List Nat)
  | .str s => if ∀ c ∈ s, c.toNat < 128 then some (s.map Char.toNat) else none
  | .bytes b => some b
  | .other => none

theorem get_put {V : Type} (l : List (Name × Cell V)) (k : Name) (v : Cell V) (n : Name) :
    ((put l k v).find? fun e => decide (e.1 = n)).map Prod.snd =
      if n = k then some v else (l.find? fun e => decide (e.1 = n)).map Prod.snd := by
  unfold put
  split
  · rename_i h
    induction l with
    | nil => simp at h
    | cons a t ih =>
      by_cases ha : a.1 = k
      · by_cases hn : n = k
        · subst hn; simp [ha]
        · have hka : ¬ k = n := fun h => hn h.symm
          rw [if_neg hn]
          simp only [List.map_cons, ha, if_true, List.find?_cons, hka, decide_false]
          by_cases hm : k ∈ t.map Prod.fst
          · rw [ih hm, if_neg hn]
          · have : t.map (fun e => if e.1 = k then (k, v) else e) = t := by
              conv_rhs => rw [← List.map_id t]
              apply List.map_congr_left
              intro e he
              rw [if_neg]; rfl
              rintro rfl; exact hm (List.mem_map_of_mem he)
            rw [this]
      · have hm : k ∈ t.map Prod.fst := by
          simp only [List.map_cons, List.mem_cons] at h
          exact h.resolve_left fun h => ha h.symm
        simp only [List.map_cons, ha, if_false, List.find?_cons]
        by_cases hn : a.1 = n
        · have : ¬ n = k := fun h => ha (hn.trans h)
          simp [hn, this]
        · simp only [hn, decide_false]; exact ih hm
  · rename_i h
    rw [List.find?_append]
    by_cases hn : n = k
    · subst hn
      have : (l.find? fun e => decide (e.1 = n)) = none := by
        rw [List.find?_eq_none]
        intro e he
        simp only [decide_eq_true_eq]
        rintro rfl; exact h (List.mem_map_of_mem he)
      simp [this]
    · have hkn : ¬ k = n := fun h => hn h.symm
      simp [hn, hkn]

theorem maxLength_ge (keys : List Key) (k : Key) (h : k ∈ keys) : k.raw.length ≤ maxLength keys := by
  unfold maxLength
  have aux : ∀ (l : List Key) (m : Nat), m ≤ l.foldl (fun m k => max m k.raw.length) m ∧
      ∀ k ∈ l, k.raw.length ≤ l.foldl (fun m k => max m k.raw.length) m := by
    intro l
    induction l with
    | nil => simp
    | cons a t ih =>
      intro m
      have := ih (max m a.raw.length)
      refine ⟨by simp only [List.foldl_cons]; omega, ?_⟩
      intro k hk
      simp only [List.foldl_cons]
      rcases List.mem_cons.1 hk with rfl | hk
      · omega
      · exact this.2 k hk
  exact (aux keys 1).2 k h

theorem fixed_id (w : Nat) (b : List Nat) (h : b.length ≤ w) (hz : b.getLast? ≠ some 0) : fixed w b = b := by
  unfold fixed
  rw [List.take_of_length_le h]
  cases hr : b.reverse with
  | nil => simpa using hr.symm
  | cons x t =>
    have hb : b = (x :: t).reverse := by rw [← hr, List.reverse_reverse]
    have hx : x ≠ 0 := by
      rintro rfl
      apply hz
      rw [hb]; simp
    have : (x == 0) = false := by simpa using hx
    rw [List.dropWhile_cons_of_neg (by simp [this]), hb]

theorem raw_of_bytes {k : Key} {b : List Nat} (h : bytesOf k = some b) : k.raw = b ∧ k.ok = true := by
  cases k with
  | str s =>
    simp only [bytesOf] at h
    split at h
    · rename_i hs
      refine ⟨Option.some.inj h, ?_⟩
      simp only [Key.ok, List.all_eq_true, decide_eq_true_eq]
      exact hs
    · cases h
  | bytes b' => exact ⟨Option.some.inj h, rfl⟩
  | other => cases h

theorem addAll {V : Type} (method : Name → Bool) (name : Name) (w : Nat) (dict : List (Key × Nat)) (heap : List (DS V))
    (hd : (dict.map Prod.snd).Nodup) :
    (dict.foldl (addKey method name w) heap).length = heap.length ∧
    (∀ (r : Nat), r ∉ dict.map Prod.snd → (dict.foldl (addKey method name w) heap)[r]? = heap[r]?) ∧
    ∀ (k : Key) (r : Nat) (d : DS V), (k, r) ∈ dict → heap[r]? = some d →
      (dict.foldl (addKey method name w) heap)[r]? = some (setAttr method d name (.keys (List.replicate d.nrows (fixed w k.raw)))) := by
  induction dict generalizing heap with
  | nil => simp
  | cons e t ih =>
    simp only [List.map_cons, List.nodup_cons] at hd
    obtain ⟨i1, i2, i3⟩ := ih (addKey method name w heap e) hd.2
    refine ⟨by simpa [addKey] using i1, ?_, ?_⟩
    · intro r hr
      simp only [List.map_cons, List.mem_cons, not_or] at hr
      rw [List.foldl_cons, i2 r hr.2]
      have hne : ¬ e.2 = r := fun h => hr.1 h.symm
      simp [addKey, List.getElem?_modify, hne]
    · intro k r d hk hr
      rw [List.foldl_cons]
      rcases List.mem_cons.1 hk with rfl | hk
      · rw [i2 r hd.1]
        simp [addKey, List.getElem?_modify, hr]
      · apply i3 k r d hk
        have : e.2 ≠ r := by
          rintro rfl; exact hd.1 (List.mem_map.2 ⟨_, hk, rfl⟩)
        simp [addKey, List.getElem?_modify, this, hr]

/-- A dictionary of different Datasets whose keys are ASCII texts or bytes: every Dataset has the new column with its key in every row,
its other columns are as before, and no other Dataset is changed.  Partial: Datasets that occur twice (`alias_counterexample`), names
that are no names of columns (`name_counterexample`) and bytes that end with NUL (`nul_counterexample`) are excluded. -/
theorem keys_partial {V : Type} (method : Name → Bool) (heap : List (DS V)) (dict : List (Key × Nat)) (name : Name) (overwrite : Bool)
    (hd : (dict.map Prod.snd).Nodup) (hname : name.head? ≠ some '_') (hmeth : method name = false)
    (hnew : overwrite = true ∨ ∀ (k : Key) (r : Nat) (d : DS V), (k, r) ∈ dict → heap[r]? = some d → d.get name = none)
    (hkeys : ∀ (k : Key) (r : Nat), (k, r) ∈ dict → ∃ b, bytesOf k = some b ∧ b.getLast? ≠ some 0) :
    ∃ heap' : List (DS V), dictToList method heap dict name overwrite = .ok (heap', dict.map Prod.snd) ∧ heap'.length = heap.length ∧
      (∀ (r : Nat), r ∉ dict.map Prod.snd → heap'[r]? = heap[r]?) ∧
      ∀ (k : Key) (r : Nat) (d : DS V) (b : List Nat), (k, r) ∈ dict → heap[r]? = some d → bytesOf k = some b →
        ∃ d' : DS V, heap'[r]? = some d' ∧ d'.nrows = d.nrows ∧ d'.get name = some (.keys (List.replicate d.nrows b)) ∧
          ∀ n, n ≠ name → d'.get n = d.get n := by
  obtain ⟨i1, i2, i3⟩ := addAll method name (maxLength (dict.map Prod.fst)) dict heap hd
  refine ⟨_, ?_, i1, i2, ?_⟩
  · unfold dictToList
    rw [if_neg, if_neg]
    · simp only [List.any_eq_true, not_exists, not_and]
      intro e he
      obtain ⟨b, hb, _⟩ := hkeys e.1 e.2 he
      simp [(raw_of_bytes hb).2]
    · intro h
      simp only [Bool.and_eq_true, Bool.not_eq_true', present, List.any_eq_true] at h
      obtain ⟨ho, e, he, hp⟩ := h
      rcases hnew with h | h
      · rw [h] at ho; cases ho
      · cases hh : heap[e.2]? with
        | none => rw [hh] at hp; simp at hp
        | some d =>
          rw [hh] at hp
          have := h e.1 e.2 d he hh
          simp only [DS.get, Option.map_eq_none_iff, List.find?_eq_none, decide_eq_true_eq] at this
          simp only [decide_eq_true_eq, List.mem_map] at hp
          obtain ⟨c, hc, hcn⟩ := hp
          exact this c hc hcn
  · intro k r d b hk hr hb
    obtain ⟨b', hb', hz⟩ := hkeys k r hk
    rw [hb] at hb'
    obtain rfl := Option.some.inj hb'
    have hraw := (raw_of_bytes hb).1
    have hw : fixed (maxLength (dict.map Prod.fst)) k.raw = b := by
      rw [fixed_id]
      · exact hraw
      · exact maxLength_ge _ k (List.mem_map_of_mem (f := Prod.fst) hk)
      · rw [hraw]; exact hz
    refine ⟨_, i3 k r d hk hr, ?_⟩
    rw [hw]
    have hs : setAttr method d name (.keys (List.replicate d.nrows b)) =
        { d with cols := put d.cols name (.keys (List.replicate d.nrows b)) } := by
      unfold setAttr
      rw [if_neg hname]
      split
      · rfl
      · rw [if_neg (by simp [hmeth])]
    rw [hs]
    refine ⟨rfl, ?_, ?_⟩
    · simp [DS.get, get_put]
    · intro n hn
      simp [DS.get, get_put, hn]

/-- Keys that are no ASCII texts and no bytes are refused, and so is a column that is there, unless overwriting is allowed. -/
theorem keys_refused {V : Type} (method : Name → Bool) (heap : List (DS V)) (dict : List (Key × Nat)) (name : Name) (overwrite : Bool)
    (k : Key) (r : Nat) (hk : (k, r) ∈ dict)
    (h : bytesOf k = none ∨ (overwrite = false ∧ ∃ (d : DS V) (v : Cell V), heap[r]? = some d ∧ d.get name = some v)) :
    dictToList method heap dict name overwrite = .error .valueError := by
  unfold dictToList
  split
  · rfl
  · rename_i hp
    rcases h with h | ⟨ho, d, v, hr, hv⟩
    · rw [if_pos]
      rw [List.any_eq_true]
      refine ⟨(k, r), hk, ?_⟩
      cases k with
      | str s =>
        simp only [bytesOf] at h
        split at h
        · cases h
        · rename_i hs
          simp only [Key.ok, Bool.not_eq_true', List.all_eq_false, decide_eq_true_eq]
          simpa using hs
      | bytes b => cases h
      | other => rfl
    · exfalso
      apply hp
      subst ho
      simp only [Bool.not_false, Bool.true_and, present, List.any_eq_true]
      refine ⟨(k, r), hk, ?_⟩
      simp only [hr, decide_eq_true_eq, List.mem_map]
      simp only [DS.get, Option.map_eq_some_iff] at hv
      obtain ⟨e, he, _⟩ := hv
      exact ⟨e, List.mem_of_find?_eq_some he, by simpa using List.find?_some he⟩

/-- two Datasets with one and two rows, keys of different lengths -/
example : ∃ heap', dictToList (fun _ => false) [⟨1, [(['x'], .data [5])]⟩, ⟨2, [(['x'], .data [6, 7])]⟩, ⟨0, []⟩]
      [(.str ['a', 'b'], 1), (.bytes [99], 0)] ['k'] false = .ok (heap', [1, 0]) ∧
    heap'[1]? = some ⟨2, [(['x'], .data [6, 7]), (['k'], .keys [[97, 98], [97, 98]])]⟩ :=
  ⟨_, rfl, by decide⟩

example : ∃ heap' : List (DS Nat), dictToList (fun _ => false) [⟨1, [(['x'], .data [5])]⟩, ⟨2, [(['x'], .data [6, 7])]⟩]
      [(.str ['a', 'b'], 1), (.bytes [99], 0)] ['k'] false = .ok (heap', [1, 0]) := by
  obtain ⟨h, e, _⟩ := keys_partial (V := Nat) (fun _ => false) [⟨1, [(['x'], .data [5])]⟩, ⟨2, [(['x'], .data [6, 7])]⟩]
    [(.str ['a', 'b'], 1), (.bytes [99], 0)] ['k'] false (by decide) (by decide) rfl
    (Or.inr (by
      intro k r d hk hr
      simp only [List.mem_cons, List.not_mem_nil, or_false, Prod.mk.injEq] at hk
      rcases hk with ⟨rfl, rfl⟩ | ⟨rfl, rfl⟩ <;> (simp at hr; subst hr; rfl)))
    (by
      intro k r hk
      simp only [List.mem_cons, List.not_mem_nil, or_false, Prod.mk.injEq] at hk
      rcases hk with ⟨rfl, rfl⟩ | ⟨rfl, rfl⟩
      · exact ⟨[97, 98], rfl, by decide⟩
      · exact ⟨[99], rfl, by decide⟩)
  exact ⟨h, e⟩

/-- A Dataset that occurs under two keys shows the last one for both. -/
theorem alias_counterexample :
    ∃ (heap : List (DS Nat)) (dict : List (Key × Nat)),
      dictToList (fun _ => false) heap dict ['k'] false =
        .ok ([⟨1, [(['x'], .data [5]), (['k'], .keys [[98]])]⟩], [0, 0]) ∧ dict = [(.str ['a'], 0), (.str ['b'], 0)] :=
  ⟨[⟨1, [(['x'], .data [5])]⟩], [(.str ['a'], 0), (.str ['b'], 0)], by decide, rfl⟩

/-- The name of a method and a name that begins with an underscore are accepted, and no Dataset gets the column. -/
theorem name_counterexample :
    ∃ (heap : List (DS Nat)) (dict : List (Key × Nat)) (method : Name → Bool),
      method ['s', 'u', 'm'] = true ∧
      dictToList method heap dict ['s', 'u', 'm'] false = .ok (heap, [0]) ∧
      dictToList method heap dict ['_', 'k'] false = .ok (heap, [0]) ∧
      heap = [⟨1, [(['x'], .data [5])]⟩] ∧ dict = [(.str ['a'], 0)] :=
  ⟨_, _, fun n => decide (n = ['s', 'u', 'm']), by decide, by decide, by decide, rfl, rfl⟩

/-- Bytes that differ in NULs at the end give the same text. -/
theorem nul_counterexample :
    ∃ (heap : List (DS Nat)) (dict : List (Key × Nat)),
      dictToList (fun _ => false) heap dict ['k'] false =
        .ok ([⟨1, [(['k'], .keys [[97]])]⟩, ⟨1, [(['k'], .keys [[97]])]⟩], [0, 1]) ∧ dict = [(.bytes [97], 0), (.bytes [97, 0], 1)] :=
  ⟨[⟨1, []⟩, ⟨1, []⟩], [(.bytes [97], 0), (.bytes [97, 0], 1)], by decide, rfl⟩

end Verif.Conv
