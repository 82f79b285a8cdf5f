import Verif.AccTab.Arith
import Verif.Cat.Edit
/-! # The guard of `accum_ratio` against categories called like its columns -/
namespace Verif.AccTab
open Verif.Items (Name Dict)
open Verif.Cat (Cat WF categoryReplace matchIndex matchIndex_cases categoryReplace_spec set_eq_map)

variable {L V : Type}

/-- a Categorical as it is made: different categories, not locked -/
structure Fine (c : Cat) : Prop where
  wf : WF c
  free : c.locked = false
  shared : c.shared = true
  same : c.uniq = c.list

/-- the category cannot be renamed: the new name exists, or does not fit into the array -/
def Stuck (c : Cat) (k : Name) : Prop := k ∈ c.list ∧ (k ++ ['_'] ∈ c.list ∨ c.width ≤ k.length)

instance (c : Cat) (k : Name) : Decidable (Stuck c k) := by unfold Stuck; infer_instance

/-- labels after the renaming -/
def renamed (k n : Name) : Name := if n = k then k ++ ['_'] else n

theorem replace_uniq {c : Cat} (hf : Fine c) (v w : Name) : (categoryReplace c v w).1.uniq = (categoryReplace c v w).1.list ∧
    (categoryReplace c v w).1.shared = true ∧ (categoryReplace c v w).1.locked = false ∧ (categoryReplace c v w).1.width = c.width := by
  unfold categoryReplace
  rw [if_neg (by rw [hf.free]; simp)]
  rcases h1 : matchIndex c v with _ | code
  · exact ⟨hf.same, hf.shared, hf.free, rfl⟩
  · rcases h2 : matchIndex c w with _ | code2
    · simp [hf.shared, hf.same, hf.free]
    · exact ⟨hf.same, hf.shared, hf.free, rfl⟩

theorem avoid_spec {c : Cat} (hf : Fine c) (k : Name) :
    ∃ c', avoid (some c) k = some c' ∧ Fine c' ∧ c'.width = c.width ∧
      c'.list = if k ∈ c.list ∧ ¬ Stuck c k then c.list.map (renamed k) else c.list := by
  unfold avoid
  rw [Option.bind_some]
  by_cases hk : k ∈ c.list
  · rw [if_pos hk]
    obtain ⟨u1, u2, u3, u4⟩ := replace_uniq hf k (k ++ ['_'])
    by_cases hw : (k ++ ['_']).length ≤ c.width
    · obtain ⟨w1, -, w3⟩ := categoryReplace_spec hf.wf k (k ++ ['_']) hw
      obtain ⟨e1, e2, -⟩ := w3 hf.free hk
      rcases hr : categoryReplace c k (k ++ ['_']) with ⟨c', o⟩
      rw [hr] at e1 e2 u1 u2 u3 u4 w1
      simp only at e1
      subst e1
      refine ⟨c', rfl, ⟨w1, u3, u2, u1⟩, u4, ?_⟩
      rw [e2]
      have hlen : ¬ c.width ≤ k.length := by simp at hw; omega
      by_cases hk_ : k ++ ['_'] ∈ c.list
      · rw [if_pos hk_, if_neg]
        rintro ⟨-, h⟩
        exact h ⟨hk, Or.inl hk_⟩
      · rw [if_neg hk_, if_pos]
        · rfl
        · refine ⟨hk, ?_⟩
          rintro ⟨-, h | h⟩
          · exact hk_ h
          · exact hlen h
    · -- the new name does not fit
      have hkw : k.length ≤ c.width := hf.wf.wid k hk
      have hst : Stuck c k := ⟨hk, Or.inr (by simp at hw; omega)⟩
      have hlen : c.width = k.length := by simp at hw; omega
      have hk_ : k ++ ['_'] ∉ c.list := by
        intro h
        have := hf.wf.wid _ h
        simp at this
        omega
      have hno : ¬ (k ∈ c.list ∧ ¬ Stuck c k) := fun h => h.2 hst
      rw [if_neg hno]
      unfold categoryReplace
      rw [if_neg (by rw [hf.free]; simp)]
      rcases matchIndex_cases hf.wf k with ⟨h, -⟩ | ⟨i, hi, hlt, hm⟩
      · exact absurd hk h
      · rcases matchIndex_cases hf.wf (k ++ ['_']) with ⟨-, hm2⟩ | ⟨j, hj, -, -⟩
        · rw [hm, hm2]
          dsimp only
          have ht : (k ++ ['_']).take c.width = k := by rw [hlen]; simp
          have hset : c.list.set i k = c.list := by
            apply List.ext_getElem?
            intro p
            rw [List.getElem?_set]
            split
            · rename_i h
              subst h
              rw [hi]
            · rfl
          rw [ht, show ((i : Int) + c.base - c.base).toNat = i by omega, hset]
          refine ⟨_, rfl, ⟨⟨hf.wf.base, hf.wf.nodup, by simp, hf.wf.lo, hf.wf.hi, hf.wf.wid⟩, hf.free, hf.shared, ?_⟩, rfl, rfl⟩
          dsimp only
          rw [hf.shared, hf.same, hset]; rfl
        · exact absurd (List.mem_of_getElem? hj) hk_
  · rw [if_neg hk]
    refine ⟨c, rfl, hf, rfl, ?_⟩
    rw [if_neg (fun h => hk h.1)]

/-- another of the names -/
theorem other_kept {l : List Name} {k m : Name} (h1 : m ≠ k) (h2 : m ≠ k ++ ['_']) : m ∈ l.map (renamed k) ↔ m ∈ l := by
  rw [List.mem_map]
  constructor
  · rintro ⟨n, hn, e⟩
    unfold renamed at e
    split at e
    · exact absurd e.symm h2
    · exact e ▸ hn
  · intro h
    exact ⟨m, h, by simp [renamed, h1]⟩

theorem stuck_kept {c c' : Cat} {k m : Name} (hw : c'.width = c.width)
    (hl : c'.list = if k ∈ c.list ∧ ¬ Stuck c k then c.list.map (renamed k) else c.list)
    (h1 : m ≠ k) (h2 : m ≠ k ++ ['_']) (h3 : m ++ ['_'] ≠ k) : (m ∈ c'.list ↔ m ∈ c.list) ∧ (Stuck c' m ↔ Stuck c m) := by
  have h4 : m ++ ['_'] ≠ k ++ ['_'] := fun e => h1 (List.append_cancel_right e)
  unfold Stuck
  rw [hl, hw]
  split
  · rw [other_kept h1 h2, other_kept h3 h4]
    exact ⟨Iff.rfl, Iff.rfl⟩
  · exact ⟨Iff.rfl, Iff.rfl⟩

/-- a name that has been renamed is gone -/
theorem gone {l : List Name} {k : Name} : k ∉ l.map (renamed k) := by
  rw [List.mem_map]
  rintro ⟨n, -, e⟩
  unfold renamed at e
  split at e
  · exact absurd (congrArg List.length e) (by simp)
  · rename_i h
    exact h e

/-- What the guard does: the Categorical of the caller has the names with an underscore. -/
theorem guard_spec {c : Cat} (hf : Fine c) :
    ∃ c', [nNumer, nDenom, nRatio].foldl avoid (some c) = some c' ∧ Fine c' ∧
      (∀ k ∈ [nNumer, nDenom, nRatio], k ∈ c'.list ↔ Stuck c k) ∧
      ((∀ k ∈ [nNumer, nDenom, nRatio], ¬ Stuck c k) →
        c'.list = c.list.map fun n => if n ∈ [nNumer, nDenom, nRatio] then n ++ ['_'] else n) := by
  obtain ⟨c1, a1, f1, w1, l1⟩ := avoid_spec hf nNumer
  obtain ⟨c2, a2, f2, w2, l2⟩ := avoid_spec f1 nDenom
  obtain ⟨c3, a3, f3, w3, l3⟩ := avoid_spec f2 nRatio
  refine ⟨c3, ?_, f3, ?_, ?_⟩
  · simp only [List.foldl_cons, List.foldl_nil]
    rw [a1, a2, a3]
  · -- membership step by step
    have own : ∀ {c c' : Cat} {k : Name}, (c'.list = if k ∈ c.list ∧ ¬ Stuck c k then c.list.map (renamed k) else c.list) →
        (k ∈ c'.list ↔ Stuck c k) := by
      intro c c' k hl
      rw [hl]
      split
      · rename_i h
        exact ⟨fun h' => absurd h' gone, fun h' => absurd h' h.2⟩
      · rename_i h
        constructor
        · intro hk
          by_contra hs
          exact h ⟨hk, hs⟩
        · exact fun h' => h'.1
    have sD1 := stuck_kept (m := nDenom) w1 l1 (by decide) (by decide) (by decide)
    have sR1 := stuck_kept (m := nRatio) w1 l1 (by decide) (by decide) (by decide)
    have sN2 := stuck_kept (m := nNumer) w2 l2 (by decide) (by decide) (by decide)
    have sR2 := stuck_kept (m := nRatio) w2 l2 (by decide) (by decide) (by decide)
    have sN3 := stuck_kept (m := nNumer) w3 l3 (by decide) (by decide) (by decide)
    have sD3 := stuck_kept (m := nDenom) w3 l3 (by decide) (by decide) (by decide)
    intro k hk
    simp only [List.mem_cons, List.not_mem_nil, or_false] at hk
    rcases hk with rfl | rfl | rfl
    · rw [sN3.1, sN2.1, own l1]
    · rw [sD3.1, own l2, sD1.2]
    · rw [own l3, sR2.2, sR1.2]
  · intro hno
    have n1 := hno nNumer (by simp)
    have n2 := hno nDenom (by simp)
    have n3 := hno nRatio (by simp)
    have sD1 := stuck_kept (m := nDenom) w1 l1 (by decide) (by decide) (by decide)
    have sR1 := stuck_kept (m := nRatio) w1 l1 (by decide) (by decide) (by decide)
    have sR2 := stuck_kept (m := nRatio) w2 l2 (by decide) (by decide) (by decide)
    have step : ∀ {c c' : Cat} {k : Name}, (c'.list = if k ∈ c.list ∧ ¬ Stuck c k then c.list.map (renamed k) else c.list) →
        ¬ Stuck c k → c'.list = c.list.map (renamed k) := by
      intro c c' k hl hs
      rw [hl]
      split
      · rfl
      · rename_i h
        have hk : k ∉ c.list := fun h' => h ⟨h', hs⟩
        conv => lhs; rw [← List.map_id c.list]
        apply List.map_congr_left
        intro n hn
        unfold renamed
        rw [if_neg (fun e : n = k => hk (e ▸ hn))]; rfl
    rw [step l3 (fun h => n3 (sR1.2.1 (sR2.2.1 h))), step l2 (fun h => n2 (sD1.2.1 h)), step l1 n1, List.map_map, List.map_map]
    apply List.map_congr_left
    intro n _
    simp only [Function.comp_apply]
    have hno : ∀ {k m : Name}, m ≠ k → renamed k m = m := fun h => if_neg h
    by_cases e1 : n = nNumer
    · subst e1; decide
    · rw [hno e1]
      by_cases e2 : n = nDenom
      · subst e2; decide
      · rw [hno e2]
        by_cases e3 : n = nRatio
        · subst e3; decide
        · rw [hno e3, if_neg (by simp [e1, e2, e3])]

/-- names that the guard brings in -/
theorem guard_names {c c' : Cat} (hf : Fine c) (h : [nNumer, nDenom, nRatio].foldl avoid (some c) = some c') :
    ∀ n ∈ c'.list, n ∈ c.list ∨ ∃ k ∈ [nNumer, nDenom, nRatio], n = k ++ ['_'] := by
  have step : ∀ {c c' : Cat} {k : Name}, (c'.list = if k ∈ c.list ∧ ¬ Stuck c k then c.list.map (renamed k) else c.list) →
      ∀ n ∈ c'.list, n ∈ c.list ∨ n = k ++ ['_'] := by
    intro c c' k hl n hn
    rw [hl] at hn
    split at hn
    · obtain ⟨m, hm, rfl⟩ := List.mem_map.1 hn
      unfold renamed
      split
      · exact Or.inr rfl
      · exact Or.inl hm
    · exact Or.inl hn
  obtain ⟨c1, a1, f1, w1, l1⟩ := avoid_spec hf nNumer
  obtain ⟨c2, a2, f2, w2, l2⟩ := avoid_spec f1 nDenom
  obtain ⟨c3, a3, f3, w3, l3⟩ := avoid_spec f2 nRatio
  simp only [List.foldl_cons, List.foldl_nil] at h
  rw [a1, a2, a3] at h
  cases h
  intro n hn
  rcases step l3 n hn with h | h
  · rcases step l2 n h with h | h
    · rcases step l1 n h with h | h
      · exact Or.inl h
      · exact Or.inr ⟨nNumer, by simp, h⟩
    · exact Or.inr ⟨nDenom, by simp, h⟩
  · exact Or.inr ⟨nRatio, by simp, h⟩

/-- a category called like one of the columns makes `accum_ratio` raise -/
theorem ratio_clash (op : V → V → V) (nan : V) (x y : Cross L V) (key : Name) (R : List L) (C : List Name) (s s' : Name)
    (incN incD : Bool) (rf : Option (List Bool)) (cf : Name → Bool) (hC : C.Nodup) (hs : s ∉ C) (hs' : s' ∉ C)
    (hkey : ∀ k ∈ [nNumer, nDenom, nRatio], k ≠ key) (h0 : summaryName 0 ∉ C)
    (h : ∃ k ∈ [nNumer, nDenom, nRatio], k ∈ C) :
    ratio op nan (x.table key R C s) (y.table key R C s') incN incD rf cf = none := by
  have hne : ∀ {k n : Name}, k ∈ C → n ∉ C → n ≠ k := fun hk hn e => hn (e ▸ hk)
  have clash : ∀ (hp : List (Tab L V)) (t : AT) (z : Cross L V) (n l k : Name) (a : Nat), hp[a]? = some (tableF z key R C n l) →
      n ∉ C → k ∈ C → setItem hp t k a = none := by
    intro hp t z n l k a ha hn hk
    unfold setItem
    rw [ha]
    simp only
    rw [renameSummary_clash z key R C n l k (hne hk hn) (Or.inl hk)]; rfl
  unfold ratio
  by_cases hN : nNumer ∈ C
  · rw [clash [x.table key R C s, y.table key R C s'] AT.new x s s nNumer 0 rfl hs hN]; rfl
  rw [setItem_table [x.table key R C s, y.table key R C s'] AT.new x key R C s s nNumer 0 rfl hC hs hN (hkey _ (by simp)), Option.bind_some]
  simp only [List.set_cons_zero]
  by_cases hD : nDenom ∈ C
  · rw [clash [x.table key R C nNumer, y.table key R C s'] _ y s' s' nDenom 1 rfl hs' hD]; rfl
  rw [setItem_table [x.table key R C nNumer, y.table key R C s'] _ y key R C s' s' nDenom 1 rfl hC hs' hD (hkey _ (by simp)), Option.bind_some]
  simp only [List.set_cons_succ, List.set_cons_zero]
  have hR : nRatio ∈ C := by
    obtain ⟨k, hk, hkC⟩ := h
    simp only [List.mem_cons, List.not_mem_nil, or_false] at hk
    rcases hk with rfl | rfl | rfl
    · exact absurd hkC hN
    · exact absurd hkC hD
    · exact hkC
  have hdN : AT.ds [x.table key R C nNumer, y.table key R C nDenom]
      ⟨((AT.new.inner.set nNumer 0)).set nDenom 1, addKey (addKey AT.new.margins nNumer) nDenom, addKey (addKey AT.new.footers nNumer) nDenom⟩ nNumer
      = some (x.table key R C nNumer) := rfl
  have hdD : AT.ds [x.table key R C nNumer, y.table key R C nDenom]
      ⟨((AT.new.inner.set nNumer 0)).set nDenom 1, addKey (addKey AT.new.margins nNumer) nDenom, addKey (addKey AT.new.footers nNumer) nDenom⟩ nDenom
      = some (y.table key R C nDenom) := rfl
  rw [hdN, Option.bind_some, hdD, Option.bind_some,
    binop_table op nan x y key key R C nNumer nDenom hC hN hD h0, Option.bind_some]
  rw [clash _ _ (x.map2 op y) (summaryName 0) "Footer0".toList nRatio 2 rfl h0 hR]; rfl

end Verif.AccTab
