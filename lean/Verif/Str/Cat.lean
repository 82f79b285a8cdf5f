import Verif.Str.Slice
import Mathlib.Data.List.Perm.Subperm
/-!
# String functions on Categoricals (C46), examples and counterexamples (C22-C25)
-/
namespace Verif.Str
open Verif.Str.Spec

/-! ## Model of `CatString` (`rt_str.py:1445-1513`)

A string-mode Categorical with base index 1: codes and labels; code 0 is a filtered row. -/

structure Cat (L : Type) where
  codes : List Nat
  labels : List L

/-- numpy `a[k]` for an integer `k` that may be negative (counts from the end) -/
def pyGet {β : Type} (a : List β) (k : Int) (d : β) : β := if k < 0 then a.getD (a.length + k).toNat d else a.getD k.toNat d

/-- `_convert_fastring_output` for results that are not strings (`rt_str.py:1474`): `out[ikey - 1]` with
the rows of code 0 (which read the last element) overwritten by the invalid value -/
def convertValues {V : Type} (codes : List Nat) (out : List V) (inv : V) : List V :=
  codes.map fun k : Nat => if k = 0 then inv else pyGet out ((k : Int) - 1) inv

/-- `Categorical._from_maybe_non_unique_labels` (`rt_categorical.py:3916-3937`), base index 1.  `uniq` stands for the
constructor `Categorical(categories)`: it returns the code of every given label and the distinct labels. -/
def fromMaybeNonUnique {L : Type} (uniq : List L → List Nat × List L) (values : List Nat) (categories : List L) : Cat L :=
  let u := uniq categories
  if categories.length = u.2.length then ⟨values, categories⟩
  else ⟨values.map fun v : Nat => if v = 0 then 0 else pyGet u.1 ((v : Int) - 1) 0, u.2⟩

/-- contract of the Categorical constructor on a list of labels -/
structure UniqOK {L : Type} (uniq : List L → List Nat × List L) : Prop where
  len : ∀ l, (uniq l).1.length = l.length
  nodup : ∀ l, (uniq l).2.Nodup
  code : ∀ l (i : Nat) (x : L), l[i]? = some x → ∃ k, (uniq l).1[i]? = some (k + 1) ∧ (uniq l).2[k]? = some x
  used : ∀ l, ∀ x ∈ (uniq l).2, x ∈ l

/-- rows of a Categorical: `none` is filtered -/
def Cat.rows {L : Type} (c : Cat L) : List (Option L) := c.codes.map fun k => if k = 0 then none else c.labels[k - 1]?

/-- codes point to labels -/
def Cat.WF {L : Type} (c : Cat L) : Prop := ∀ k ∈ c.codes, k ≤ c.labels.length

/-- the reference constructor: labels in order of first appearance -/
def refUniq {L : Type} [DecidableEq L] (l : List L) : List Nat × List L :=
  (l.map fun x => l.eraseDups.idxOf x + 1, l.eraseDups)

theorem nodup_eraseDups_beq {α : Type} [BEq α] [LawfulBEq α] (l : List α) : l.eraseDups.Nodup := by
  generalize hn : l.length = n
  induction n using Nat.strongRecOn generalizing l with
  | ind n ih =>
    cases l with
    | nil => simp
    | cons a l =>
      rw [List.eraseDups_cons, List.nodup_cons]
      refine ⟨by simp [List.mem_eraseDups], ?_⟩
      refine ih _ ?_ _ rfl
      have := List.length_filter_le (fun b => !b == a) l
      simp only [List.length_cons] at hn
      omega

theorem refUniq_ok {L : Type} [DecidableEq L] : UniqOK (refUniq (L := L)) := by
  refine ⟨fun l => by simp [refUniq], fun l => nodup_eraseDups_beq l, fun l i x h => ?_, fun l x h => ?_⟩
  · refine ⟨l.eraseDups.idxOf x, by simp [refUniq, h], ?_⟩
    have hm : x ∈ l.eraseDups := List.mem_eraseDups.mpr (List.mem_of_getElem? h)
    have hlt := List.idxOf_lt_length_iff.mpr hm
    simp only [refUniq]
    rw [List.getElem?_eq_getElem hlt, List.getElem_idxOf hlt]
  · exact List.mem_eraseDups.mp h

/-! ## C46 -/

theorem pyGet_pred {β : Type} (a : List β) (k : Nat) (d : β) (hk : k ≠ 0) : pyGet a ((k : Int) - 1) d = a.getD (k - 1) d := by
  unfold pyGet
  rw [if_neg (by omega)]
  congr 1; omega

/-- **C46** A function with numeric or boolean results (`strlen`, `index`, `contains`, …): every row gets
the result for its own label, filtered rows the invalid value. -/
theorem cat_values_correct {L V : Type} (c : Cat L) (hc : c.WF) (f : L → V) (inv : V) :
    convertValues c.codes (c.labels.map f) inv = c.rows.map fun r => (r.map f).getD inv := by
  unfold convertValues Cat.rows
  rw [List.map_map]
  refine List.map_congr_left fun k hk => ?_
  simp only [Function.comp]
  by_cases h : k = 0
  · simp [h]
  · have := hc k hk
    rw [if_neg h, if_neg h, pyGet_pred _ _ _ h, List.getD_eq_getElem?_getD, List.getElem?_map]

/-- `Nodup` from equally many distinct elements -/
theorem nodup_of_cover {L : Type} [DecidableEq L] (l u : List L) (hu : u.Nodup) (h1 : ∀ x ∈ l, x ∈ u) (h2 : ∀ x ∈ u, x ∈ l)
    (hl : l.length = u.length) : l.Nodup := by
  have hsub : u.Subperm l := hu.subperm h2
  have hp : u.Perm l := hsub.perm_of_length_le (by omega)
  exact hp.nodup_iff.mp hu

/-- **C46** A function with string results (`upper`, `replace`, `substr`, …) gives a Categorical with distinct labels
whose rows are the results for the labels of the rows; filtered rows stay filtered. -/
theorem cat_strings_correct {L M : Type} [DecidableEq M] (uniq : List M → List Nat × List M) (hu : UniqOK uniq) (c : Cat L) (hc : c.WF) (f : L → M) :
    let r := fromMaybeNonUnique uniq c.codes (c.labels.map f)
    r.rows = c.rows.map (Option.map f) ∧ r.labels.Nodup ∧ r.WF ∧ ∀ m ∈ r.labels, ∃ l ∈ c.labels, f l = m := by
  dsimp only
  unfold fromMaybeNonUnique
  dsimp only
  split
  · rename_i hlen
    refine ⟨?_, ?_, by intro k hk; rw [List.length_map]; exact hc k hk, fun m hm => by simpa using hm⟩
    · unfold Cat.rows
      rw [List.map_map]
      refine List.map_congr_left fun k hk => ?_
      simp only [Function.comp]
      split <;> simp
    · refine nodup_of_cover _ _ (hu.nodup _) (fun x hx => ?_) (hu.used _) hlen
      obtain ⟨i, hi, e⟩ := List.getElem_of_mem hx
      obtain ⟨k, _, h2⟩ := hu.code _ i x (by rw [List.getElem?_eq_getElem hi, e])
      exact List.mem_of_getElem? h2
  · have hcode : ∀ k ∈ c.codes, k ≠ 0 → ∃ q x, c.labels[k - 1]? = some x ∧
        pyGet (uniq (c.labels.map f)).1 ((k : Int) - 1) 0 = q + 1 ∧ (uniq (c.labels.map f)).2[q]? = some (f x) := by
      intro k hk h
      have hkl : k - 1 < c.labels.length := by have := hc k hk; omega
      obtain ⟨q, h1, h2⟩ := hu.code (c.labels.map f) (k - 1) (f c.labels[k - 1]) (by simp [hkl])
      refine ⟨q, c.labels[k - 1], List.getElem?_eq_getElem hkl, ?_, h2⟩
      rw [pyGet_pred _ _ _ h, List.getD_eq_getElem?_getD, h1]; rfl
    refine ⟨?_, hu.nodup _, ?_, fun m hm => ?_⟩
    · unfold Cat.rows
      rw [List.map_map, List.map_map]
      refine List.map_congr_left fun k hk => ?_
      simp only [Function.comp]
      by_cases h : k = 0
      · simp [h]
      · obtain ⟨q, x, h1, h2, h3⟩ := hcode k hk h
        rw [if_neg h, h2, if_neg (by omega), if_neg h, h1]
        simpa using h3
    · intro v hv
      obtain ⟨k, hk, rfl⟩ := List.mem_map.mp hv
      split
      · omega
      · rename_i h
        obtain ⟨q, x, _, h2, h3⟩ := hcode k hk h
        have := (List.getElem?_eq_some_iff.mp h3).1
        rw [h2]; exact this
    · have := hu.used _ m hm
      simpa using this

/-- the theorem on a Categorical with a filtered row whose labels `a`, `A` become equal -/
example : let c : Cat (List Nat) := ⟨[2, 0, 1, 3, 2], [[97], [65], [98]]⟩
    (fromMaybeNonUnique refUniq c.codes (c.labels.map (List.map upChar))).rows =
      [some [65], none, some [65], some [66], some [65]] ∧ c.WF := by
  refine ⟨by decide, ?_⟩
  unfold Cat.WF; decide

/-! ### `substr[a:]` on a Categorical

`CatString.substr` wraps the CatString itself in `_SubStrAccessor` (`rt_str.py:1510-1512`), whose `__getitem__` takes the
missing stop from `CatString.strlen`, one entry per *row* (`:1433-1437`), and passes it to `_substr`, which looks it up by *label*. -/

/-- `cat.str.substr[start:]`: the stops are the row lengths; `labelsBuf` holds the labels with width `w` -/
def CatSubstrFrom (labelsBuf : Buf) (w : Nat) (codes : List Nat) (labelLens : List Int) (start : Int) (res : Nat × Buf) : Prop :=
  Substr labelsBuf w labelLens.length (.scalar start) (.array (convertValues codes labelLens (-2147483648))) labelLens res

/-- Labels `abc`, `d`, rows `d`, `abc`: `cat.str.substr[1:]` turns `abc` into the empty string instead of `bc`. -/
theorem cat_substr_from_counterexample : ∃ (labels : Buf) (w : Nat) (codes : List Nat) (lens : List Int),
    Lengths labels w lens.length lens ∧ (∀ i < lens.length, Clean (row w i labels)) ∧ (Cat.mk codes lens).WF ∧
    decode (row w 0 labels) = [97, 98, 99] ∧ (Cat.mk codes lens).rows = [some 1, some 3] ∧
    ∀ res, CatSubstrFrom labels w codes lens 1 res → decode (row res.1 0 res.2) = [] ∧
      pySlice (decode (row w 0 labels)) 1 (decode (row w 0 labels)).length = [98, 99] := by
  refine ⟨[97, 98, 99, 100, 0, 0], 3, [2, 1], [3, 1], ?_, ?_, ?_, by decide, by decide, ?_⟩
  · unfold Lengths; decide
  · unfold Clean; decide
  · unfold Cat.WF; decide
  · intro res h
    have := (substr_correct (n := 2) (w := 3) (by decide) (by unfold Lengths; decide) (by unfold Clean; decide) h).2 0 (by decide)
    rw [this]
    decide

/-! ## Examples: the hypotheses are met, the runs exist -/

/-- rows `ab` and `aBc` in width 3 -/
def exBuf : Buf := [97, 98, 0, 97, 66, 99]

example : exBuf.length = 2 * 3 ∧ (∀ i < 2, Clean (row 3 i exBuf)) ∧ Lengths exBuf 3 2 [2, 3] ∧
    decode (row 3 0 exBuf) = [97, 98] ∧ decode (row 3 1 exBuf) = [97, 66, 99] := by
  refine ⟨rfl, ?_, ?_, by decide, by decide⟩
  · unfold Clean; decide
  · unfold Lengths; decide
example : (⟨true, [97]⟩ : Arg).Plain ∧ (⟨false, [97, 66]⟩ : Arg).Plain ∧ (⟨true, []⟩ : Arg).Plain := by
  refine ⟨⟨by decide, by decide⟩, ⟨by decide, by decide⟩, ⟨by decide, by decide⟩⟩
/-- every kernel has a run for every uninitialised result array -/
example (dest : Buf) : ∃ out, Runs 2 (upperTrace exBuf 3) dest out := runs_exists _ _ _
example (dest : List Int) : ∃ out, Index exBuf 3 2 ⟨true, [97]⟩ dest out := by
  simpa [Index, Search, Arg.isEmptyStr, Arg.buf] using runs_exists (β := Int) 2 (indexTrace exBuf 3 [97]) dest
/-- `replace('a', 'xy')`: the width grows to 4 -/
example : ∃ res, Replace exBuf 3 2 ⟨true, [97]⟩ ⟨true, [120, 121]⟩ res ∧ ∃ out, res = .ok (4, out) := by
  obtain ⟨out, h⟩ := runs_exists 2 (replaceTrace exBuf 3 4 [97] [120, 121]) (List.replicate (2 * 4) 0)
  refine ⟨.ok (4, out), ?_, out, rfl⟩
  unfold Replace
  rw [if_neg (by decide), if_neg (by decide)]
  exact ⟨out, h, rfl⟩
example : pyReplace [97] [120, 121] [97, 98] = [120, 121, 98] ∧ pyReplace [97, 97] [98] [97, 97, 97] = [98, 97] := by decide
example : pySlice [97, 98, 99] (-2) 3 = [98, 99] ∧ pySlice [97, 98, 99] 2 1 = [] ∧ pySlice [97, 98, 99] (-9) (-1) = [97, 98] := by decide
example : ∃ res, Substr exBuf 3 2 (.scalar (-2)) (.array [5, -1]) [2, 3] res := by
  obtain ⟨out, h⟩ := runs_exists 2 (substrTrace exBuf 3 (.scalar (-2)) (.array [5, -1]) [2, 3]) (List.replicate (2 * 3) 0)
  exact ⟨_, out, h, rfl⟩
example : ∃ res, Char exBuf 3 2 [-1, 0] [2, 3] res := by
  obtain ⟨out, h⟩ := runs_exists 2 (fun i => [(charRow exBuf 3 ([-1, 0].getD i 0) ([2, 3].getD i 0) i).1]) (List.replicate 2 0)
  refine ⟨.ok out, ?_⟩
  unfold Char
  rw [if_neg (by decide)]
  exact ⟨out, h, rfl⟩

/-! ## Counterexamples -/

/-- a kernel with one result per row, computed -/
theorem runs_one_row {β : Type} {n : Nat} {trace : Nat → List (Nat × β)} {dest out : List β} (hr : Runs n trace dest out)
    (ho : ∀ i < n, ∀ s ∈ trace i, s.1 = i) (i : Nat) (hi : i < n) : out[i]? = (stores (trace i) dest)[i]? :=
  (runs_one hr ho).2 i hi

/-- **C23** The guard compares with `""` only: for a bytes array, `contains(b"")` looks for a NUL and answers False on
every row that fills its field, where Python's `b"" in s` is True (`rt_str.py:708-713`). -/
theorem contains_empty_bytes_counterexample : ∃ (src : Buf) (w : Nat) (a : Arg), a.chars = [] ∧
    ∀ dest out, dest.length = 1 → Contains src w 1 a dest out → out[0]? = some false ∧ a.chars <:+: decode (row w 0 src) := by
  refine ⟨[97, 98], 2, ⟨false, []⟩, rfl, fun dest out hd hr => ⟨?_, by simp⟩⟩
  unfold Contains Search at hr
  rw [if_neg (by decide)] at hr
  have htr : containsTrace [97, 98] 2 (Arg.buf ⟨false, []⟩) 0 = [(0, false)] := by decide
  rw [runs_one_row hr (by intro i hi s hs; obtain rfl : i = 0 := by omega
                          rw [htr] at hs; simpa using (List.mem_singleton.mp hs) ▸ rfl) 0 (by omega), htr]
  simp [stores, hd]

/-- **C24** `replace(b"", b"x")` on a bytes array is not refused: it fills the padding. -/
theorem replace_empty_bytes_counterexample : ∃ (src : Buf) (w : Nat),
    decode (row w 0 src) = [97] ∧ ∃ out, Replace src w 1 ⟨false, []⟩ ⟨false, [120]⟩ (.ok (2, out)) ∧ decode (row 2 0 out) = [97, 120] := by
  refine ⟨[97, 0], 2, by decide, ?_⟩
  obtain ⟨out, h⟩ := runs_exists 1 (replaceTrace [97, 0] 2 2 [0] [120]) (List.replicate (1 * 2) 0)
  refine ⟨out, ?_, ?_⟩
  · unfold Replace
    rw [if_neg (by decide), if_neg (by decide)]
    exact ⟨out, h, rfl⟩
  · have htr : replaceTrace [97, 0] 2 2 [0] [120] 0 = [(0, 97), (1, 120)] := by decide
    have h2 := (runs_row (w := 2) h (by
      intro i hi s hs
      obtain rfl : i = 0 := by omega
      rw [htr] at hs
      simp only [List.mem_cons, List.not_mem_nil, or_false] at hs
      rcases hs with rfl | rfl <;> simp)).2 0 (by omega)
    rw [h2, htr]
    decide

/-- **C22**, **C25** A field with a NUL inside (which numpy keeps): `strlen` stops there although the string is longer. -/
theorem strlen_nul_counterexample : ∃ (src : Buf) (w : Nat), decode (row w 0 src) = [97, 0, 98] ∧
    ∀ dest out, dest.length = 1 → Runs 1 (strlenTrace src w) dest out → out[0]? = some 1 := by
  refine ⟨[97, 0, 98], 3, by decide, fun dest out hd hr => ?_⟩
  have htr : strlenTrace [97, 0, 98] 3 0 = [(0, 1)] := by decide
  rw [runs_one_row hr (by intro i hi s hs; obtain rfl : i = 0 := by omega
                          rw [htr] at hs; simpa using (List.mem_singleton.mp hs) ▸ rfl) 0 (by omega), htr]
  simp [stores, hd]

/-- **C25** `substr_char_stop(stop, inclusive=True)` promises to include the stopping string but includes only its first
character (`rt_str.py:1253-1256`): `a--b` with `--` gives `a-`. -/
theorem char_stop_inclusive_counterexample : ∃ (src : Buf) (w : Nat) (t : List Nat) (index strlen : List Int),
    Lengths src w 1 strlen ∧ (∀ i < 1, Clean (row w i src)) ∧ index = [1] ∧ IsFind (decode (row w 0 src)) t 1 ∧ t = [45, 45] ∧
    decode (row w 0 src) = [97, 45, 45, 98] ∧
    ∀ res, Substr src w 1 (.scalar 0) (.array (charStops w true index)) strlen res → decode (row res.1 0 res.2) = [97, 45] := by
  refine ⟨[97, 45, 45, 98], 4, [45, 45], [1], [4], by unfold Lengths; decide, by unfold Clean; decide, rfl,
    .inr ⟨1, rfl, by decide, by decide⟩, rfl, by decide, fun res h => ?_⟩
  have := (substr_correct (n := 1) (w := 4) (by decide) (by unfold Lengths; decide) (by unfold Clean; decide) h).2 0 (by decide)
  rw [this]
  decide

end Verif.Str
