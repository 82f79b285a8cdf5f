import Verif.GbNumba.Model
import Verif.Par.Lemmas
import Verif.GbNumba.Spec
import Mathlib.Data.List.Nodup
import Mathlib.Data.Nat.Basic
import Mathlib.Order.Basic

/-! # The work split; what one core computes -/
namespace Verif.GbNumba
open Verif.Par
variable {α β : Type}

/-! ## The work split -/

/-- closed form of the low end of core `i` -/
def lowOf (dividend rem i : Nat) : Nat := i * dividend + min i rem

theorem splitLoop (dividend rem cores : Nat) (bl bh : List Nat) (hl : bl.length = cores) (hh : bh.length = cores) (k : Nat) (hk : k ≤ cores) :
    (List.range k).foldl (splitBody dividend) ⟨0, rem, bl, bh⟩ =
      ⟨lowOf dividend rem k, rem - k,
        (List.range k).map (lowOf dividend rem) ++ bl.drop k,
        (List.range k).map (fun i => lowOf dividend rem (i + 1)) ++ bh.drop k⟩ := by
  induction k with
  | zero => simp [lowOf]
  | succ k ih =>
    rw [List.range_succ, List.foldl_append, ih (by omega)]
    simp only [List.foldl_cons, List.foldl_nil, splitBody]
    have hhigh : (if rem - k > 0 then lowOf dividend rem k + dividend + 1 else lowOf dividend rem k + dividend) = lowOf dividend rem (k + 1) := by
      unfold lowOf
      rw [Nat.succ_mul]
      split <;> omega
    have hrem : (if rem - k > 0 then rem - k - 1 else rem - k) = rem - (k + 1) := by split <;> omega
    have hset : ∀ (f : Nat → Nat) (l : List Nat), l.length = cores → ∀ v,
        ((List.range k).map f ++ l.drop k).set k v = (List.range k).map f ++ (v :: l.drop (k + 1)) := by
      intro f l hlen v
      rw [List.set_append_right _ _ (by simp)]
      congr 1
      rw [List.length_map, List.length_range, Nat.sub_self, List.drop_eq_getElem_cons (show k < l.length by omega)]
      rfl
    rw [hhigh, hrem, hset _ bl hl, hset _ bh hh]
    simp

theorem buildCoreList_eq (cores rows : Nat) (bl bh : List Nat) (hl : bl.length = cores) (hh : bh.length = cores) :
    buildCoreList cores rows bl bh =
      ((List.range cores).map (lowOf (rows / cores) (rows % cores)),
       (List.range cores).map fun i => lowOf (rows / cores) (rows % cores) (i + 1)) := by
  unfold buildCoreList
  rw [splitLoop _ _ cores bl bh hl hh cores (Nat.le_refl _)]
  simp [List.drop_eq_nil_of_le, hl, hh]

theorem lowOf_mono (d r i : Nat) : lowOf d r i ≤ lowOf d r (i + 1) := by
  unfold lowOf; rw [Nat.succ_mul]; omega

theorem lowOf_le (d r : Nat) {i j : Nat} (h : i ≤ j) : lowOf d r i ≤ lowOf d r j := by
  induction j, h using Nat.le_induction with
  | base => exact Nat.le_refl _
  | succ j _ ih => exact ih.trans (lowOf_mono d r j)

theorem lowOf_last (cores rows : Nat) (h : 0 < cores) : lowOf (rows / cores) (rows % cores) cores = rows := by
  unfold lowOf
  have := Nat.mod_lt rows h
  have := Nat.div_add_mod rows cores
  rw [Nat.min_eq_right (by omega)]
  omega

theorem lowOf_find (d r n : Nat) (g : Nat) (h : g < lowOf d r n) : ∃ i, i < n ∧ lowOf d r i ≤ g ∧ g < lowOf d r (i + 1) := by
  induction n with
  | zero => simp [lowOf] at h
  | succ n ih =>
    by_cases hg : g < lowOf d r n
    · obtain ⟨i, h1, h2, h3⟩ := ih hg; exact ⟨i, by omega, h2, h3⟩
    · exact ⟨n, by omega, by omega, h⟩

theorem lowOf_unique (d r : Nat) {i j g : Nat} (h1 : lowOf d r i ≤ g) (h2 : g < lowOf d r (i + 1)) (h3 : lowOf d r j ≤ g)
    (h4 : g < lowOf d r (j + 1)) : i = j := by
  rcases Nat.lt_trichotomy i j with h | h | h
  · have := lowOf_le d r (show i + 1 ≤ j from h); omega
  · exact h
  · have := lowOf_le d r (show j + 1 ≤ i from h); omega

/-! ## One core -/

theorem solo_reset (init : β) (l : List Nat) : ∀ (m : List β) (r : β),
    (solo (m, r) (l.map fun i => Act.store i fun _ => init)).1.length = m.length ∧
    ∀ c, c ∈ l → c < m.length → (solo (m, r) (l.map fun i => Act.store i fun _ => init)).1[c]? = some init := by
  have keep : ∀ (l : List Nat) (m : List β) (r : β) (c : Nat), m[c]? = some init →
      (solo (m, r) (l.map fun i => Act.store i fun _ => init)).1[c]? = some init := by
    intro l
    induction l with
    | nil => intro m r c h; exact h
    | cons i l ih =>
      intro m r c h
      refine ih (m.set i init) r c ?_
      rw [List.getElem?_set]
      split
      · rename_i e
        subst e
        rw [if_pos (List.getElem?_eq_some_iff.mp h).1]
      · exact h
  induction l with
  | nil => intro m r; exact ⟨rfl, by simp⟩
  | cons i l ih =>
    intro m r
    obtain ⟨h1, h2⟩ := ih (m.set i init) r
    refine ⟨h1.trans (by simp), ?_⟩
    intro c hc hlt
    rcases List.mem_cons.mp hc with rfl | hc
    · refine keep l (m.set c init) r c ?_
      simp [hlt]
    · exact h2 c hc (by simpa using hlt)

theorem solo_rows (upd : β → α → β) (low high : Nat) (rows : List (Nat × α)) : ∀ (m : List β) (r : β) (c : Nat) (v : β),
    low ≤ c → c < high → m[c]? = some v →
    (solo (m, r) (rows.flatMap fun p =>
      if p.1 ≥ low ∧ p.1 < high then [Act.load p.1 fun _ v => v, .store p.1 fun r => upd r p.2] else [])).1[c]? =
      some ((((rows.filter fun p => p.1 = c).map Prod.snd)).foldl upd v) := by
  induction rows with
  | nil => intro m r c v _ _ h; exact h
  | cons p rows ih =>
    intro m r c v h1 h2 h
    rw [List.flatMap_cons, solo_append]
    by_cases hp : p.1 = c
    · have hf : ((p :: rows).filter fun p => p.1 = c) = p :: rows.filter fun p => p.1 = c := by simp [hp]
      rw [hf]
      rw [if_pos (by rw [hp]; exact ⟨h1, h2⟩)]
      have hm : m[p.1]? = some v := by rw [hp]; exact h
      simp only [solo, List.foldl_cons, List.foldl_nil, access, List.map_cons, hm]
      refine ih _ _ c (upd v p.2) h1 h2 ?_
      rw [hp]
      obtain ⟨hlt, hv⟩ := List.getElem?_eq_some_iff.mp h
      simp [hv, hlt]
    · have hf : ((p :: rows).filter fun p => p.1 = c) = rows.filter fun p => p.1 = c := by simp [hp]
      rw [hf]
      split
      · refine ih _ _ c v h1 h2 ?_
        show (access (access (m, r) (.load p.1 fun _ v => v)) (.store p.1 fun r => upd r p.2)).1[c]? = some v
        rw [access_other _ _ _ (by exact hp), access_other _ _ _ (by exact hp)]
        exact h
      · exact ih m r c v h1 h2 h

theorem coreProg_result (init : β) (upd : β → α → β) (ikey : List Nat) (data : List α) (low high : Nat) (m : List β) (r : β) (c : Nat)
    (h1 : low ≤ c) (h2 : c < high) (h3 : c < m.length) :
    (solo (m, r) (coreProg init upd ikey data low high)).1[c]? = some ((groupVals ikey data c).foldl upd init) := by
  unfold coreProg
  rw [solo_append]
  obtain ⟨_, hr⟩ := solo_reset init (List.range' low (high - low)) m r
  have := hr c (List.mem_range'_1.mpr ⟨h1, by omega⟩) h3
  generalize hs : solo (m, r) ((List.range' low (high - low)).map fun i => Act.store i fun _ => init) = s at *
  obtain ⟨m', r'⟩ := s
  exact solo_rows upd low high (ikey.zip data) m' r' c init h1 h2 this

theorem coreProg_own (init : β) (upd : β → α → β) (ikey : List Nat) (data : List α) (low high : Nat) :
    ∀ a ∈ coreProg init upd ikey data low high, low ≤ a.cell ∧ a.cell < high := by
  intro a ha
  unfold coreProg at ha
  rcases List.mem_append.mp ha with ha | ha
  · obtain ⟨i, hi, rfl⟩ := List.mem_map.mp ha
    have := List.mem_range'_1.mp hi
    exact ⟨this.1, by show i < high; omega⟩
  · obtain ⟨p, _, hp⟩ := List.mem_flatMap.mp ha
    split at hp
    · rename_i hc
      simp only [List.mem_cons, List.not_mem_nil, or_false] at hp
      rcases hp with rfl | rfl <;> exact hc
    · simp at hp

end Verif.GbNumba
