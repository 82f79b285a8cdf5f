import Verif.Dup.Spec
import Verif.Dup.Model
import Verif.Grp.Pack
/-! # Repeated rows: lemmas about packings and about numbering rows -/
namespace Verif.Dup
open Verif.Grp

theorem pick_ok (ig : List Nat) (idx : List Int) : (∀ k ∈ idx, ∃ i, mbget ig k = some i) →
    ∃ ps, (pick ig idx).mapM id = some ps ∧ ∀ (i : Nat), i ∈ ps ↔ ∃ k ∈ idx, mbget ig k = some i := by
  induction idx with
  | nil => intro _; exact ⟨[], rfl, by simp⟩
  | cons k idx ih =>
    intro h
    obtain ⟨ps, h1, h2⟩ := ih fun k' hk' => h k' (List.mem_cons_of_mem _ hk')
    obtain ⟨i0, hi0⟩ := h k (by simp)
    refine ⟨i0 :: ps, ?_, ?_⟩
    · have h1' : (List.map (fun (k : Int) => mbget ig k) idx).mapM id = some ps := h1
      simp [pick, hi0, h1']
    · intro i
      rw [List.mem_cons, h2]
      constructor
      · rintro (rfl | ⟨k', a, b⟩)
        · exact ⟨k, by simp, hi0⟩
        · exact ⟨k', List.mem_cons_of_mem _ a, b⟩
      · rintro ⟨k', a, b⟩
        rcases List.mem_cons.1 a with rfl | a
        · rw [hi0] at b; exact Or.inl (Option.some.inj b).symm
        · exact Or.inr ⟨k', a, b⟩

theorem mapM_npPos (len : Nat) (ps : List Nat) : (∀ i ∈ ps, i < len) →
    (ps.map fun (i : Nat) => (i : Int)).mapM (npPos len) = some ps := by
  induction ps with
  | nil => intro _; rfl
  | cons a ps ih =>
    intro h
    have ha := h a (by simp)
    have hp : npPos len (a : Int) = some a := by
      unfold npPos
      rw [if_pos (by omega), Int.toNat_natCast, if_pos ha]
    rw [List.map_cons, List.mapM_cons, hp, ih fun i hi => h i (List.mem_cons_of_mem _ hi)]
    rfl

theorem setFalse_ok (r : List Bool) (ps : List Nat) (h : ∀ i ∈ ps, i < r.length) :
    setFalse r (ps.map fun (i : Nat) => (i : Int)) = .ok (r.mapIdx fun (i : Nat) (b : Bool) => if i ∈ ps then false else b) := by
  unfold setFalse
  rw [mapM_npPos _ _ h]

theorem setPicked_ok (r : List Bool) (ig : List Nat) (idx : List Int) (h : ∀ k ∈ idx, ∃ i, mbget ig k = some i ∧ i < r.length) :
    ∃ r', setPicked r ig idx = .ok r' ∧ r'.length = r.length ∧
      ∀ (i : Nat) (b : Bool), r[i]? = some b → (r'[i]? = some false ∧ (∃ k ∈ idx, mbget ig k = some i)) ∨
        (r'[i]? = some b ∧ ¬ ∃ k ∈ idx, mbget ig k = some i) := by
  obtain ⟨ps, h1, h2⟩ := pick_ok ig idx fun k hk => (h k hk).imp fun _ x => x.1
  refine ⟨r.mapIdx fun (i : Nat) (b : Bool) => if i ∈ ps then false else b, ?_, by simp, ?_⟩
  · unfold setPicked
    rw [h1]
    refine setFalse_ok _ _ fun i hi => ?_
    obtain ⟨k, hk, hm⟩ := (h2 i).1 hi
    obtain ⟨i', hm', hl⟩ := h k hk
    rw [hm] at hm'
    rw [Option.some.inj hm']
    exact hl
  · intro i b hb
    rw [List.getElem?_mapIdx, hb]
    by_cases hi : i ∈ ps
    · exact Or.inl ⟨by simp [hi], (h2 i).1 hi⟩
    · exact Or.inr ⟨by simp [hi], fun hx => hi ((h2 i).2 hx)⟩

/-! ## first and last rows of groups -/

theorem sorted_head {l : List Nat} (h : l.Pairwise (· < ·)) (i : Nat) : l.head? = some i ↔ i ∈ l ∧ ∀ j ∈ l, i ≤ j := by
  cases l with
  | nil => simp
  | cons a l =>
    rw [List.head?_cons]
    have hp := List.pairwise_cons.1 h
    constructor
    · intro e
      cases e
      refine ⟨by simp, fun j hj => ?_⟩
      rcases List.mem_cons.1 hj with rfl | hj
      · exact Nat.le_refl _
      · exact Nat.le_of_lt (hp.1 j hj)
    · rintro ⟨h1, h2⟩
      rcases List.mem_cons.1 h1 with rfl | h1
      · rfl
      · have a1 := hp.1 i h1
        have a2 := h2 a (by simp)
        omega

theorem sorted_last {l : List Nat} (h : l.Pairwise (· < ·)) (i : Nat) : l.getLast? = some i ↔ i ∈ l ∧ ∀ j ∈ l, j ≤ i := by
  induction l using List.reverseRecOn with
  | nil => simp
  | append_singleton l a _ =>
    rw [List.getLast?_append]
    have hp := List.pairwise_append.1 h
    simp only [List.getLast?_singleton, Option.some_or, Option.some.injEq]
    constructor
    · rintro rfl
      refine ⟨by simp, fun j hj => ?_⟩
      rcases List.mem_append.1 hj with hj | hj
      · exact Nat.le_of_lt (hp.2.2 j hj a (by simp))
      · rw [List.mem_singleton.1 hj]
    · rintro ⟨h1, h2⟩
      rcases List.mem_append.1 h1 with h1 | h1
      · have a1 := hp.2.2 i h1 a (by simp)
        have a2 := h2 a (by simp)
        omega
      · exact (List.mem_singleton.1 h1).symm

theorem head_rowsOf {keys : List Nat} {g i : Nat} :
    (rowsOf keys g).head? = some i ↔ keys[i]? = some g ∧ ∀ (j : Nat), keys[j]? = some g → i ≤ j := by
  rw [sorted_head (rowsOf_sorted keys g), mem_rowsOf]
  constructor
  · exact fun h => ⟨h.1, fun j hj => h.2 j (mem_rowsOf.2 hj)⟩
  · exact fun h => ⟨h.1, fun j hj => h.2 j (mem_rowsOf.1 hj)⟩

theorem last_rowsOf {keys : List Nat} {g i : Nat} :
    (rowsOf keys g).getLast? = some i ↔ keys[i]? = some g ∧ ∀ (j : Nat), keys[j]? = some g → j ≤ i := by
  rw [sorted_last (rowsOf_sorted keys g), mem_rowsOf]
  constructor
  · exact fun h => ⟨h.1, fun j hj => h.2 j (mem_rowsOf.2 hj)⟩
  · exact fun h => ⟨h.1, fun j hj => h.2 j (mem_rowsOf.1 hj)⟩

theorem rowsOf_ne {keys : List Nat} {g : Nat} (h : g ∈ keys) : 0 < (rowsOf keys g).length := by
  obtain ⟨i, hi⟩ := List.mem_iff_getElem?.1 h
  exact List.length_pos_of_mem (mem_rowsOf.2 hi)

/-! ## numbering by first appearance is possible -/

/-- the different items in order of first appearance -/
def uniq {K : Type} [DecidableEq K] (l : List K) : List K := l.foldl (fun acc r => if r ∈ acc then acc else acc ++ [r]) []

/-- reference numbering -/
def refGroup {K : Type} [DecidableEq K] (l : List K) : List Nat × Nat := (l.map fun (x : K) => (uniq l).idxOf x + 1, (uniq l).length)

section
variable {K : Type} [DecidableEq K]

theorem uniq_concat (l : List K) (x : K) : uniq (l ++ [x]) = if x ∈ uniq l then uniq l else uniq l ++ [x] := by
  unfold uniq
  rw [List.foldl_append]
  rfl

theorem mem_uniq (l : List K) (x : K) : x ∈ uniq l ↔ x ∈ l := by
  induction l using List.reverseRecOn with
  | nil => simp [uniq]
  | append_singleton l a ih =>
    rw [uniq_concat]
    split
    · rename_i h
      rw [ih, List.mem_append, List.mem_singleton]
      constructor
      · exact Or.inl
      · rintro (h' | rfl)
        · exact h'
        · exact ih.1 h
    · rw [List.mem_append, List.mem_append, ih]

theorem nodup_uniq (l : List K) : (uniq l).Nodup := by
  induction l using List.reverseRecOn with
  | nil => simp [uniq]
  | append_singleton l a ih =>
    rw [uniq_concat]
    split
    · exact ih
    · rename_i h
      rw [List.nodup_append]
      refine ⟨ih, by simp, ?_⟩
      intro x hx y hy hxy
      rw [List.mem_singleton] at hy
      subst hy; subst hxy
      exact h hx

theorem uniq_idxOf_concat (l : List K) (a x : K) (h : x ∈ l) : (uniq (l ++ [a])).idxOf x = (uniq l).idxOf x := by
  rw [uniq_concat]
  split
  · rfl
  · rw [List.idxOf_append, if_pos ((mem_uniq l x).2 h)]

theorem idxOf_inj' {l : List K} {x y : K} (hx : x ∈ l) (h : l.idxOf x = l.idxOf y) : x = y := by
  have hl := List.idxOf_lt_length_iff.2 hx
  have hy : y ∈ l := by
    rw [← List.idxOf_lt_length_iff, ← h]
    exact hl
  have e1 := List.getElem_idxOf hl
  have hl' := List.idxOf_lt_length_iff.2 hy
  have e2 := List.getElem_idxOf hl'
  rw [← e1, ← e2]
  congr 1

theorem ref_order (l : List K) : ∀ (i b : Nat), ((refGroup l).1)[i]? = some b → ∀ (a : Nat), 1 ≤ a → a < b →
    ∃ j, j < i ∧ ((refGroup l).1)[j]? = some a := by
  induction l using List.reverseRecOn with
  | nil => intro i b h; simp [refGroup] at h
  | append_singleton l x ih =>
    intro i b h a h1 h2
    have key : ∀ (m : Nat), m < l.length → ((refGroup (l ++ [x])).1)[m]? = ((refGroup l).1)[m]? := by
      intro m hm
      simp only [refGroup, List.getElem?_map]
      rw [List.getElem?_append_left hm, List.getElem?_eq_getElem hm, Option.map_some, Option.map_some,
        uniq_idxOf_concat l x _ (List.getElem_mem hm)]
    have hlen : (refGroup (l ++ [x])).1.length = l.length + 1 := by simp [refGroup]
    by_cases hi : i < l.length
    · rw [key i hi] at h
      obtain ⟨j, hj, hk⟩ := ih i b h a h1 h2
      exact ⟨j, hj, by rw [key j (by omega), hk]⟩
    · have hi' : i = l.length := by
        by_contra hn
        rw [List.getElem?_eq_none (by omega)] at h
        simp at h
      subst hi'
      -- the number of the new item is at most one more than the number of the different items so far
      have hb : b ≤ (uniq l).length + 1 := by
        simp only [refGroup, List.getElem?_map] at h
        rw [List.getElem?_append_right (Nat.le_refl _), Nat.sub_self] at h
        simp only [List.getElem?_cons_zero, Option.map_some, Option.some.injEq] at h
        have : x ∈ uniq (l ++ [x]) := (mem_uniq _ _).2 (by simp)
        have hlt := List.idxOf_lt_length_iff.2 this
        have hle : (uniq (l ++ [x])).length ≤ (uniq l).length + 1 := by
          rw [uniq_concat]
          split
          · omega
          · simp
        omega
      have ha : a - 1 < (uniq l).length := by omega
      have hmem : (uniq l)[a - 1] ∈ l := (mem_uniq l _).1 (List.getElem_mem ha)
      obtain ⟨j, hj, he⟩ := List.mem_iff_getElem.1 hmem
      refine ⟨j, hj, ?_⟩
      rw [key j hj]
      simp only [refGroup, List.getElem?_map]
      rw [List.getElem?_eq_getElem hj, Option.map_some, he, (nodup_uniq l).idxOf_getElem]
      congr 1
      omega

/-- the contract of the C++ grouping can be met -/
theorem refGroup_numbered (l : List K) : Numbered l (refGroup l).1 (refGroup l).2 := by
  refine ⟨by simp [refGroup], ?_, ?_, ?_, ref_order l⟩
  · intro i j hi hj
    simp only [refGroup, List.getElem?_map]
    rw [List.getElem?_eq_getElem hi, List.getElem?_eq_getElem hj, Option.map_some, Option.map_some, Option.some.injEq, Option.some.injEq]
    constructor
    · intro h
      exact idxOf_inj' ((mem_uniq l _).2 (List.getElem_mem hi)) (by omega)
    · intro h; rw [h]
  · intro k hk
    simp only [refGroup, List.mem_map] at hk
    obtain ⟨x, hx, rfl⟩ := hk
    have := List.idxOf_lt_length_iff.2 ((mem_uniq l x).2 hx)
    simp only [refGroup]
    omega
  · intro g h1 h2
    have hg : g - 1 < (uniq l).length := by simp only [refGroup] at h2; omega
    simp only [refGroup, List.mem_map]
    refine ⟨(uniq l)[g - 1], (mem_uniq l _).1 (List.getElem_mem hg), ?_⟩
    rw [(nodup_uniq l).idxOf_getElem]
    omega

end

end Verif.Dup
