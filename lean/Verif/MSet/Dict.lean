import Verif.MSet.Model
import Mathlib.Data.List.Nodup
/-!
# Dictionaries: lemmas
-/
namespace Verif.MSet

variable {A : Type}

theorem at?_nil (k : Name) : at? ([] : List (Name × A)) k = none := rfl

theorem at?_cons (p : Name × A) (d : List (Name × A)) (k : Name) :
    at? (p :: d) k = if p.1 = k then some p.2 else at? d k := by
  by_cases h : p.1 = k <;> simp [at?, h]

theorem at?_append (d e : List (Name × A)) (k : Name) : at? (d ++ e) k = (at? d k).or (at? e k) := by
  induction d with
  | nil => simp [at?_nil]
  | cons p d ih =>
    rw [List.cons_append, at?_cons, at?_cons, ih]
    by_cases h : p.1 = k <;> simp [h]

theorem at?_eq_none (d : List (Name × A)) (k : Name) : at? d k = none ↔ k ∉ names d := by
  induction d with
  | nil => simp [at?_nil, names]
  | cons p d ih =>
    rw [at?_cons]
    by_cases h : p.1 = k
    · simp [h, names]
    · simp only [h, if_false, ih, names, List.map_cons, List.mem_cons, not_or]
      exact ⟨fun h' => ⟨fun e => h e.symm, h'⟩, fun h' => h'.2⟩

theorem at?_isSome (d : List (Name × A)) (k : Name) : (∃ v, at? d k = some v) ↔ k ∈ names d := by
  have := at?_eq_none d k
  cases h : at? d k with
  | none => simp only [h, true_iff] at this; simp [this]
  | some v => simp only [h, reduceCtorEq, false_iff, not_not] at this; simp [this]

theorem mem_of_at? {d : List (Name × A)} {k : Name} {v : A} (h : at? d k = some v) : (k, v) ∈ d := by
  induction d with
  | nil => simp [at?_nil] at h
  | cons p d ih =>
    rw [at?_cons] at h
    by_cases hp : p.1 = k
    · rw [if_pos hp] at h
      simp only [Option.some.injEq] at h
      rw [← hp, ← h]; exact List.mem_cons_self
    · rw [if_neg hp] at h
      exact List.mem_cons_of_mem _ (ih h)

theorem at?_of_mem {d : List (Name × A)} {k : Name} {v : A} (hn : (names d).Nodup) (h : (k, v) ∈ d) : at? d k = some v := by
  induction d with
  | nil => simp at h
  | cons p d ih =>
    rw [at?_cons]
    simp only [names, List.map_cons, List.nodup_cons] at hn
    rcases List.mem_cons.1 h with h | h
    · rw [← h]; simp
    · have : p.1 ≠ k := fun e => hn.1 (e ▸ List.mem_map_of_mem (f := Prod.fst) h)
      rw [if_neg this]
      exact ih hn.2 h

theorem at?_put (d : List (Name × A)) (k : Name) (v : A) (k' : Name) :
    at? (put d k v) k' = if k = k' then some v else at? d k' := by
  unfold put
  split
  · rename_i hk
    induction d with
    | nil => simp [names] at hk
    | cons p d ih =>
      rw [List.map_cons, at?_cons, at?_cons]
      by_cases hp : p.1 = k
      · simp only [hp, if_true]
        by_cases hkk : k = k'
        · simp [hkk]
        · simp only [hkk, if_false]
          by_cases hkd : k ∈ names d
          · have := ih hkd
            rw [if_neg hkk] at this
            exact this
          · congr 1
            have : ∀ q ∈ d, ¬ q.1 = k := fun q hq e => hkd (e ▸ List.mem_map_of_mem (f := Prod.fst) hq)
            calc _ = d.map id := List.map_congr_left fun q hq => by simp [this q hq]
              _ = d := by simp
      · simp only [hp, if_false]
        have hkd : k ∈ names d := by
          simp only [names, List.map_cons, List.mem_cons] at hk
          rcases hk with hk | hk
          · exact absurd hk.symm hp
          · exact hk
        rw [ih hkd]
        by_cases h1 : p.1 = k' <;> by_cases h2 : k = k'
        · exact absurd (h1.trans h2.symm) hp
        all_goals simp [h1, h2]
  · rename_i hk
    rw [at?_append, at?_cons, at?_nil]
    by_cases h : k = k'
    · subst h
      rw [(at?_eq_none d k).2 hk]; simp
    · simp only [h, if_false]
      cases at? d k' <;> rfl

theorem names_put (d : List (Name × A)) (k : Name) (v : A) :
    names (put d k v) = if k ∈ names d then names d else names d ++ [k] := by
  unfold put
  split
  · simp only [names, List.map_map]
    refine List.map_congr_left fun p _ => ?_
    by_cases h : p.1 = k <;> simp [h]
  · simp [names]

theorem nodup_put {d : List (Name × A)} {k : Name} {v : A} (h : (names d).Nodup) : (names (put d k v)).Nodup := by
  rw [names_put]
  split
  · exact h
  · rename_i hk
    rw [List.nodup_append]
    exact ⟨h, by simp, fun a ha b hb => by simp only [List.mem_singleton] at hb; subst hb; exact fun e => hk (e ▸ ha)⟩

theorem mem_names_put (d : List (Name × A)) (k : Name) (v : A) (k' : Name) :
    k' ∈ names (put d k v) ↔ k' = k ∨ k' ∈ names d := by
  rw [names_put]
  split
  · rename_i h
    exact ⟨Or.inr, fun h' => h'.elim (fun e => e ▸ h) id⟩
  · simp [or_comm]

theorem put_new {d : List (Name × A)} {k : Name} {v : A} (h : k ∉ names d) : put d k v = d ++ [(k, v)] := by
  simp [put, h]

end Verif.MSet
