import Verif.Items.Model
import Mathlib.Data.List.Nodup

/-! # Lemmas on dictionaries -/
namespace Verif.Items.Dict
variable {κ V : Type} [DecidableEq κ] {d : Dict κ V}

theorem has_iff (d : Dict κ V) (k : κ) : d.has k = true ↔ k ∈ d.keys := by
  simp [has, keys, List.any_eq_true]

theorem has_false_iff (d : Dict κ V) (k : κ) : d.has k = false ↔ k ∉ d.keys := by
  rw [← has_iff, Bool.not_eq_true]

theorem get_cons (e : κ × V) (d : Dict κ V) (k : κ) :
    get (e :: d) k = if e.1 = k then some e.2 else get d k := by
  unfold get
  rw [List.find?_cons]
  by_cases h : e.1 = k <;> simp [h]

@[simp] theorem get_nil (k : κ) : get ([] : Dict κ V) k = none := rfl

theorem get_eq_none_iff (d : Dict κ V) (k : κ) : d.get k = none ↔ k ∉ d.keys := by
  induction d with
  | nil => simp [keys]
  | cons e d ih =>
    rw [get_cons]
    simp only [keys, List.map_cons, List.mem_cons, not_or] at ih ⊢
    by_cases h : e.1 = k
    · simp [h]
    · rw [if_neg h, ih]; exact ⟨fun a => ⟨fun e' => h e'.symm, a⟩, fun a => a.2⟩

theorem mem_of_get {k : κ} {v : V} (h : d.get k = some v) : (k, v) ∈ d := by
  induction d with
  | nil => simp at h
  | cons e d ih =>
    rw [get_cons] at h
    by_cases hk : e.1 = k
    · rw [if_pos hk] at h; subst hk; rw [← Option.some.inj h]; simp
    · rw [if_neg hk] at h; exact List.mem_cons_of_mem _ (ih h)

theorem get_of_mem (hn : d.keys.Nodup) {k : κ} {v : V} (h : (k, v) ∈ d) : d.get k = some v := by
  induction d with
  | nil => simp at h
  | cons e d ih =>
    rw [get_cons]
    simp only [keys, List.map_cons, List.nodup_cons] at hn
    rcases List.mem_cons.mp h with rfl | h
    · simp
    · rw [if_neg, ih hn.2 h]
      intro e'
      exact hn.1 (e' ▸ List.mem_map.mpr ⟨_, h, rfl⟩)

theorem get_iff (hn : d.keys.Nodup) (k : κ) (v : V) : d.get k = some v ↔ (k, v) ∈ d :=
  ⟨mem_of_get, get_of_mem hn⟩

theorem set_of_mem {k : κ} (h : k ∈ d.keys) (v : V) :
    d.set k v = d.map fun e => if e.1 = k then (k, v) else e := by
  unfold set; rw [if_pos ((has_iff d k).mpr h)]

theorem set_of_notMem {k : κ} (h : k ∉ d.keys) (v : V) : d.set k v = d ++ [(k, v)] := by
  unfold set; rw [(has_false_iff d k).mpr h]; rfl

theorem keys_set_of_mem {k : κ} (h : k ∈ d.keys) (v : V) : (d.set k v).keys = d.keys := by
  rw [set_of_mem h]
  unfold keys
  rw [List.map_map]
  apply List.map_congr_left
  intro e _
  simp only [Function.comp]
  split <;> simp_all

theorem keys_set_of_notMem {k : κ} (h : k ∉ d.keys) (v : V) : (d.set k v).keys = d.keys ++ [k] := by
  rw [set_of_notMem h]; simp [keys]

theorem mem_keys_set (d : Dict κ V) (k k' : κ) (v : V) : k' ∈ (d.set k v).keys ↔ k' = k ∨ k' ∈ d.keys := by
  by_cases h : k ∈ d.keys
  · rw [keys_set_of_mem h]; constructor
    · exact Or.inr
    · rintro (rfl | h') <;> assumption
  · rw [keys_set_of_notMem h]; simp [or_comm]

theorem nodup_set (h : d.keys.Nodup) (k : κ) (v : V) : (d.set k v).keys.Nodup := by
  by_cases hk : k ∈ d.keys
  · rw [keys_set_of_mem hk]; exact h
  · rw [keys_set_of_notMem hk]; exact List.Nodup.append h (by simp) (by simpa using hk)

theorem get_set (d : Dict κ V) (k k' : κ) (v : V) :
    (d.set k v).get k' = if k' = k then some v else d.get k' := by
  by_cases hk : k ∈ d.keys
  · rw [set_of_mem hk]
    induction d with
    | nil => simp [keys] at hk
    | cons e d ih =>
      rw [List.map_cons, get_cons, get_cons]
      by_cases he : e.1 = k
      · simp only [he, if_true]
        by_cases h1 : k = k'
        · simp [h1]
        · rw [if_neg h1, if_neg (Ne.symm h1), if_neg h1]
          by_cases hd : k ∈ keys d
          · rw [ih hd, if_neg (Ne.symm h1)]
          · have : (d.map fun e => if e.1 = k then (k, v) else e) = d := by
              refine (List.map_congr_left (g := id) ?_).trans (List.map_id d)
              intro x hx
              show _ = x
              rw [if_neg]
              intro hx'
              exact hd (hx' ▸ List.mem_map.mpr ⟨x, hx, rfl⟩)
            rw [this]
      · have hd : k ∈ keys d := by
          simp only [keys, List.map_cons, List.mem_cons] at hk
          exact hk.resolve_left (fun h => he h.symm)
        simp only [he, if_false]
        by_cases h1 : e.1 = k'
        · rw [if_pos h1, if_pos h1, if_neg (fun h => he (h1.trans h))]
        · rw [if_neg h1, if_neg h1, ih hd]
  · rw [set_of_notMem hk]
    unfold get
    rw [List.find?_append]
    by_cases h1 : k' = k
    · subst h1
      have : d.get k' = none := (get_eq_none_iff d k').mpr hk
      unfold get at this
      rw [Option.map_eq_none_iff] at this
      simp [this]
    · simp [h1, Ne.symm h1]

theorem get_del (d : Dict κ V) (k k' : κ) : (d.del k).get k' = if k' = k then none else d.get k' := by
  induction d with
  | nil => simp [del]
  | cons e d ih =>
    unfold del at ih ⊢
    rw [List.filter_cons]
    by_cases he : e.1 = k
    · simp only [he, ne_eq, not_true_eq_false, decide_false, Bool.false_eq_true, if_false]
      rw [ih, get_cons]
      by_cases h1 : k' = k
      · simp [h1]
      · rw [if_neg h1, if_neg h1, he, if_neg (Ne.symm h1)]
    · simp only [he, ne_eq, not_false_eq_true, decide_true, if_true]
      rw [get_cons, get_cons, ih]
      by_cases h1 : k' = k
      · subst h1; simp [he]
      · simp [h1]

theorem keys_del (d : Dict κ V) (k : κ) : (d.del k).keys = d.keys.filter (· ≠ k) := by
  unfold del keys
  rw [List.filter_map]
  rfl

theorem nodup_del (h : d.keys.Nodup) (k : κ) : (d.del k).keys.Nodup := by
  rw [keys_del]; exact h.filter _

theorem get_perm {d' : Dict κ V} (hn : d.keys.Nodup) (hp : d.Perm d') (k : κ) : d'.get k = d.get k := by
  have hn' : d'.keys.Nodup := (hp.map Prod.fst).nodup_iff.mp hn
  apply Option.ext
  intro v
  rw [get_iff hn, get_iff hn', hp.mem_iff]

end Verif.Items.Dict
