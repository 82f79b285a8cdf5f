import Verif.Cols.Model
import Verif.Items.Dict
import Std.Data.String.ToNat

/-! # Lemmas for functions and arithmetic on all columns -/
namespace Verif.Cols
open Verif.Items (Dict)
open Spec

variable {V : Type}

theorem summaryName_inj {i j : Nat} (h : summaryName i = summaryName j) : i = j := by
  unfold summaryName at h
  have h2 : toString i = toString j := by
    have := congrArg String.toList h
    simp only [String.toList_append] at this
    exact String.toList_injective (List.append_cancel_left this)
  exact Nat.repr_injective h2

theorem present_map (cs : Dict String (Col V)) (m : String → Col V → Col V) :
    present (cs.map fun e => (e.1, some (m e.1 e.2))) = some (cs.map fun e => (e.1, m e.1 e.2)) := by
  induction cs with
  | nil => rfl
  | cons e es ih => simp [present, ih]

theorem even_iff (cs : Dict String (Col V)) :
    even cs = true ↔ ∀ e ∈ cs, ∀ e' ∈ cs, e.2.vals.length = e'.2.vals.length := by
  cases cs with
  | nil => simp [even]
  | cons e es =>
    simp only [even, List.all_eq_true, decide_eq_true_eq, List.mem_cons]
    constructor
    · intro h a ha b hb
      have : ∀ x, x = e ∨ x ∈ es → x.2.vals.length = e.2.vals.length := by
        rintro x (rfl | hx)
        · rfl
        · exact h x hx
      rw [this a ha, this b hb]
    · intro h x hx
      exact h x (Or.inr hx) e (Or.inl rfl)

theorem even_map (cs : Dict String (Col V)) (m : String → Col V → Col V) (nm : String → String) (h : even cs = true)
    (hm : ∀ e ∈ cs, (m e.1 e.2).vals.length = e.2.vals.length) : even (cs.map fun e => (nm e.1, m e.1 e.2)) = true := by
  rw [even_iff] at h ⊢
  intro a ha b hb
  obtain ⟨a', ha', rfl⟩ := List.mem_map.1 ha
  obtain ⟨b', hb', rfl⟩ := List.mem_map.1 hb
  simp only [hm a' ha', hm b' hb', h a' ha' b' hb']

/-- the names `Summary0`, … cannot be given: one of them is taken by a column which is not a
summary column renamed before -/
def Clash (keys ss : List String) (i : Nat) : Prop :=
  ∃ k, k < ss.length ∧ summaryName (i + k) ∈ keys ∧ ∀ j, j ≤ k → ss[j]? ≠ some (summaryName (i + k))

theorem keys_map (d : Dict String (Col V)) (nm : String → String) (m : String → Col V → Col V) :
    Dict.keys (d.map fun e => (nm e.1, m e.1 e.2)) = d.keys.map nm := by
  simp [Dict.keys, Function.comp_def]

theorem clash_cons_same {keys ss : List String} {s : String} {i : Nat} (hs : s = summaryName i) :
    Clash keys (s :: ss) i ↔ Clash keys ss (i + 1) := by
  constructor
  · rintro ⟨k, hk, hm, hj⟩
    cases k with
    | zero => exact absurd (by simp [hs]) (hj 0 (Nat.le_refl 0))
    | succ k =>
      refine ⟨k, by simpa using hk, by simpa [Nat.add_assoc, Nat.add_comm 1 k] using hm, ?_⟩
      intro j hjk
      have := hj (j + 1) (by omega)
      simpa [Nat.add_assoc, Nat.add_comm 1 k] using this
  · rintro ⟨k, hk, hm, hj⟩
    refine ⟨k + 1, by simpa using hk, by simpa [Nat.add_assoc, Nat.add_comm 1 k] using hm, ?_⟩
    intro j hjk
    cases j with
    | zero =>
      intro e
      simp [hs] at e
      have := summaryName_inj e
      omega
    | succ j =>
      have := hj j (by omega)
      simpa [Nat.add_assoc, Nat.add_comm 1 k] using this

theorem clash_cons_move {keys ss : List String} {s : String} {i : Nat} (hn : summaryName i ∉ keys) :
    Clash keys (s :: ss) i ↔ Clash (keys.map fun k => if k = s then summaryName i else k) ss (i + 1) := by
  constructor
  · rintro ⟨k, hk, hm, hj⟩
    cases k with
    | zero => exact absurd hm hn
    | succ k =>
      refine ⟨k, by simpa using hk, ?_, ?_⟩
      · rw [List.mem_map]
        refine ⟨summaryName (i + (k + 1)), hm, ?_⟩
        have : summaryName (i + (k + 1)) ≠ s := by
          intro e
          exact hj 0 (by omega) (by simp [e])
        rw [if_neg this]
        congr 1
        omega
      · intro j hjk
        have := hj (j + 1) (by omega)
        simpa [Nat.add_assoc, Nat.add_comm 1 k] using this
  · rintro ⟨k, hk, hm, hj⟩
    have e1 : i + 1 + k = i + (k + 1) := by omega
    rw [e1] at hm hj
    rw [List.mem_map] at hm
    obtain ⟨x, hx, he⟩ := hm
    have hxs : x ≠ s := by
      intro e
      rw [if_pos e] at he
      have := summaryName_inj he
      omega
    rw [if_neg hxs] at he
    subst he
    refine ⟨k + 1, by simpa using hk, hx, ?_⟩
    intro j hjk
    cases j with
    | zero => simpa using fun e => hxs e.symm
    | succ j => simpa using hj j (by omega)

theorem renameCol_ok {d : Dict String (Col V)} {old new : String} (h1 : old ∈ d.keys) (h2 : new ∉ d.keys) :
    renameCol d old new = .ok (d.map fun e => (if e.1 = old then new else e.1, e.2)) := by
  unfold renameCol
  have hne : old ≠ new := fun e => h2 (e ▸ h1)
  rw [if_neg hne]
  have a : d.has old = true := (Dict.has_iff d old).2 h1
  have b : d.has new = false := (Dict.has_false_iff d new).2 h2
  simp [a, b]

/-- the renames together -/
theorem renameAll_ok (ss : List String) : ∀ (i : Nat) (d : Dict String (Col V)), ss.Nodup → d.keys.Nodup → (∀ s ∈ ss, s ∈ d.keys) →
    ¬ Clash d.keys ss i →
    renameAll ss i d = .ok (d.map fun e => (if e.1 ∈ ss then summaryName (i + ss.idxOf e.1) else e.1, e.2)) := by
  induction ss with
  | nil => intro i d _ _ _ _; simp [renameAll]
  | cons s ss ih =>
    intro i d hss hd hin hc
    have hss' := (List.nodup_cons.1 hss)
    by_cases hs : s = summaryName i
    · rw [clash_cons_same hs] at hc
      have := ih (i + 1) d hss'.2 hd (fun x hx => hin x (List.mem_cons_of_mem _ hx)) hc
      simp only [renameAll, renameCol, if_pos hs, bind, Except.bind]
      rw [this]
      congr 1
      apply List.map_congr_left
      intro e he
      by_cases h : e.1 = s
      · rw [if_neg (by rw [h]; exact hss'.1), h]
        simp [hs]
      · by_cases h' : e.1 ∈ ss
        · rw [if_pos h', if_pos (List.mem_cons_of_mem _ h'), List.idxOf_cons_ne _ (fun x => h x.symm)]
          congr 2
          omega
        · rw [if_neg h', if_neg (by simp [h, h'])]
    · have hn : summaryName i ∉ d.keys := by
        intro hm
        exact hc ⟨0, by simp, hm, fun j hj => by
          have : j = 0 := by omega
          subst this
          simpa using hs⟩
      rw [clash_cons_move hn] at hc
      simp only [renameAll, renameCol_ok (hin s (by simp)) hn, bind, Except.bind]
      have hk : Dict.keys (d.map fun e => (if e.1 = s then summaryName i else e.1, e.2)) = d.keys.map fun k => if k = s then summaryName i else k :=
        keys_map d (fun k => if k = s then summaryName i else k) (fun _ c => c)
      rw [ih (i + 1) _ hss'.2 (by
          rw [hk]
          apply List.Nodup.map_on _ hd
          intro x hx y hy hxy
          by_cases h1 : x = s <;> by_cases h2 : y = s
          · rw [h1, h2]
          · rw [if_pos h1, if_neg h2] at hxy; exact absurd (hxy ▸ hy) hn
          · rw [if_neg h1, if_pos h2] at hxy; exact absurd (hxy ▸ hx) hn
          · rwa [if_neg h1, if_neg h2] at hxy)
        (by
          intro x hx
          rw [hk, List.mem_map]
          exact ⟨x, hin x (List.mem_cons_of_mem _ hx), if_neg (fun (e : x = s) => hss'.1 (e ▸ hx))⟩)
        (by rw [hk]; exact hc)]
      rw [List.map_map]
      congr 1
      apply List.map_congr_left
      intro e he
      simp only [Function.comp_apply]
      by_cases h : e.1 = s
      · have : summaryName i ∉ ss := fun hm => hn (hin _ (List.mem_cons_of_mem _ hm))
        rw [if_pos h, if_neg this, h]
        simp
      · rw [if_neg h]
        by_cases h' : e.1 ∈ ss
        · rw [if_pos h', if_pos (List.mem_cons_of_mem _ h'), List.idxOf_cons_ne _ (fun x => h x.symm)]
          congr 2
          omega
        · rw [if_neg h', if_neg (by simp [h, h'])]

theorem renameAll_err (ss : List String) : ∀ (i : Nat) (d : Dict String (Col V)), ss.Nodup → d.keys.Nodup → (∀ s ∈ ss, s ∈ d.keys) →
    Clash d.keys ss i → renameAll ss i d = .error .value := by
  induction ss with
  | nil => rintro i d _ _ _ ⟨k, hk, _⟩; simp at hk
  | cons s ss ih =>
    intro i d hss hd hin hc
    have hss' := (List.nodup_cons.1 hss)
    by_cases hs : s = summaryName i
    · rw [clash_cons_same hs] at hc
      simp only [renameAll, renameCol, if_pos hs, bind, Except.bind]
      exact ih (i + 1) d hss'.2 hd (fun x hx => hin x (List.mem_cons_of_mem _ hx)) hc
    · by_cases hn : summaryName i ∈ d.keys
      · have a : d.has s = true := (Dict.has_iff d s).2 (hin s (by simp))
        have b : d.has (summaryName i) = true := (Dict.has_iff d _).2 hn
        simp only [renameAll, renameCol, if_neg hs, a, b, bind, Except.bind]
        rfl
      · rw [clash_cons_move hn] at hc
        simp only [renameAll, renameCol_ok (hin s (by simp)) hn, bind, Except.bind]
        have hk : Dict.keys (d.map fun e => (if e.1 = s then summaryName i else e.1, e.2)) = d.keys.map fun k => if k = s then summaryName i else k :=
          keys_map d (fun k => if k = s then summaryName i else k) (fun _ c => c)
        refine ih (i + 1) _ hss'.2 (by
          rw [hk]
          apply List.Nodup.map_on _ hd
          intro x hx y hy hxy
          by_cases h1 : x = s <;> by_cases h2 : y = s
          · rw [h1, h2]
          · rw [if_pos h1, if_neg h2] at hxy; exact absurd (hxy ▸ hy) hn
          · rw [if_neg h1, if_pos h2] at hxy; exact absurd (hxy ▸ hx) hn
          · rwa [if_neg h1, if_neg h2] at hxy)
          (by
          intro x hx
          rw [hk, List.mem_map]
          exact ⟨x, hin x (List.mem_cons_of_mem _ hx), if_neg (fun (e : x = s) => hss'.1 (e ▸ hx))⟩)
          (by rw [hk]; exact hc)

theorem outs_ok (f : List V → Except Err (Out V)) (g : List V → Col V) (labels : List String) (cs : Dict String (Col V))
    (hg : ∀ e ∈ cs, e.2.comp = true → e.1 ∉ labels → f e.2.vals = .ok (some (g e.2.vals))) :
    outs f (.all .no) labels false cs = .ok (cs.map fun e => (e.1, some (mapped g labels e.1 e.2))) := by
  induction cs with
  | nil => rfl
  | cons e es ih =>
    obtain ⟨n, c⟩ := e
    have ih' := ih (fun e he => hg e (List.mem_cons_of_mem _ he))
    simp only [outs, bind, Except.bind, ih', pure, Except.pure, List.map_cons]
    by_cases hl : n ∈ labels
    · rw [if_pos (by simp [hl])]
      simp [mapped, hl]
    · rw [if_neg (by simp [hl])]
      cases hc : c.comp with
      | true =>
        have := hg (n, c) (by simp) hc hl
        simp only [operate, hc, if_true]
        simp only at this
        rw [this]
        simp [mapped, hl, hc]
      | false => simp [operate, hc, FillArg.at, mapped]

end Verif.Cols
