import Verif.SdsStack.Rows
/-!
# C253: Categoricals that cannot be stacked
-/
namespace Verif.SdsStack
open Verif.Items Verif.Cat
variable {L : Type} [DecidableEq L]

theorem mapM_error {α β : Type} (f : α → Except Err β) (l : List α) (x : α) (hx : x ∈ l) (e : Err) (h : f x = .error e) :
    ∃ e', l.mapM f = .error e' := by
  induction l with
  | nil => cases hx
  | cons y ys ih =>
    rw [List.mapM_cons]
    cases hy : f y with
    | error e' => exact ⟨e', rfl⟩
    | ok b =>
      rcases List.mem_cons.1 hx with rfl | hx
      · rw [h] at hy; cases hy
      · obtain ⟨e', he'⟩ := ih hx
        exact ⟨e', by rw [he']; rfl⟩

/-- the kind a meta data entry was saved from -/
def Meta.tag : Meta → Nat × Nat
  | .other cls => (0, cls)
  | .arr base => (1, base)
  | .map => (2, 0)

theorem metaOf_cat {k : Kind L} (h : ∀ cls, k ≠ .plain cls) : ∃ m, metaOf k = some m ∧ m.tag = k.tag ∧ m.isOther = false := by
  cases k with
  | plain cls => exact absurd rfl (h cls)
  | arr b l => exact ⟨_, rfl, rfl, rfl⟩
  | map ps => exact ⟨_, rfl, rfl, rfl⟩

/-- **C253** Categoricals of one name but of different modes or base indices are never stacked: loading raises. -/
theorem stack_modes_refused (crc : List L → Nat) (crcI : List Int → Nat) (crcS : List Label → Nat) (g : List L → Grp) (buf : Nat → List Int)
    (inv : Int) (ts : List (Table L)) (hok : ∀ t ∈ ts, TableOK inv t) (n : Name)
    (hcat : ∀ t ∈ ts, ∀ c, t.col n = some c → ∀ cls, c.kind ≠ .plain cls)
    (t t' : Table L) (ht : t ∈ ts) (ht' : t' ∈ ts) (c c' : Column L) (hc : t.col n = some c) (hc' : t'.col n = some c')
    (hd : c.kind.tag ≠ c'.kind.tag) :
    ∃ e, stackItems crc crcI crcS g buf inv (ts.map save) = .error e := by
  have hspec := specMeta_save ts hok n
  -- the meta data of the two columns
  have hin : ∀ s ∈ ts, ∀ d, s.col n = some d → ∃ m ∈ specMeta ((ts.map save).map (·.metas)) n, m.tag = d.kind.tag := by
    intro s hs d hsd
    obtain ⟨m, hm, htag, _⟩ := metaOf_cat (hcat s hs d hsd)
    refine ⟨m, ?_, htag⟩
    rw [hspec]
    exact List.mem_flatMap.2 ⟨s, hs, by rw [hsd]; simp [hm]⟩
  have hno : ∀ m ∈ specMeta ((ts.map save).map (·.metas)) n, m.isOther = false := by
    intro m hm
    rw [hspec] at hm
    obtain ⟨s, hs, hm⟩ := List.mem_flatMap.1 hm
    cases hsd : s.col n with
    | none => rw [hsd] at hm; simp at hm
    | some d =>
      obtain ⟨m', hm', _, ho⟩ := metaOf_cat (hcat s hs d hsd)
      rw [hsd] at hm
      simp only [Option.bind_some, hm', Option.toList_some, List.mem_singleton] at hm
      rw [hm]; exact ho
  obtain ⟨m, hm, htag⟩ := hin t ht c hc
  obtain ⟨m', hm', htag'⟩ := hin t' ht' c' hc'
  have hmm : m.tag ≠ m'.tag := by rw [htag, htag']; exact hd
  -- the column raises
  have hcol : ∀ o : List Int × List Nat, ∃ e, stackColumn crc crcI crcS g buf inv (multiStack inv (ts.map save)) (n, o) = .error e := by
    intro o
    have hms : (multiStack inv (ts.map save)).metas = (ts.map save).map (·.metas) := rfl
    have hcats : ∀ ind icut aux maps, ∃ e, multistackCats crc crcI crcS g buf inv (specMeta ((ts.map save).map (·.metas)) n) ind icut aux maps = .error e := by
      intro ind icut aux maps
      generalize hM : specMeta ((ts.map save).map (·.metas)) n = M at hm hm' hno
      unfold multistackCats
      dsimp only
      rw [if_neg (by rw [List.any_eq_true]; rintro ⟨x, hx, h⟩; rw [hno x hx] at h; cases h)]
      by_cases h2 : M.any Meta.isMap = true ∧ ¬ M.all Meta.isMap = true
      · rw [if_pos h2]; exact ⟨_, rfl⟩
      · rw [if_neg h2]
        have h3 : ¬ M.all Meta.isMap = true := by
          intro h
          rw [List.all_eq_true] at h
          have a := h m hm
          have b := h m' hm'
          apply hmm
          cases m <;> cases m' <;> simp_all [Meta.isMap]
        rw [if_neg h3]
        have h4 : ∀ x ∈ M, x.isMap = false := by
          intro x hx
          have : ¬ M.any Meta.isMap = true := fun h => h2 ⟨h, h3⟩
          rw [Bool.not_eq_true, List.any_eq_false] at this
          simpa using this x hx
        cases hM' : M with
        | nil => exact ⟨_, rfl⟩
        | cons x xs =>
          cases x with
          | other cls => exact ⟨_, rfl⟩
          | map => exact ⟨_, rfl⟩
          | arr base =>
            dsimp only
            rw [if_neg]
            · exact ⟨_, rfl⟩
            · intro hall
              rw [List.all_eq_true] at hall
              rw [hM'] at hm hm'
              have e1 : ∀ y ∈ Meta.arr base :: xs, y = .arr base := by
                intro y hy
                rcases List.mem_cons.1 hy with rfl | hy
                · rfl
                · exact of_decide_eq_true (hall y hy)
              rw [e1 m hm, e1 m' hm'] at hmm
              exact hmm rfl
    obtain ⟨e, he⟩ := hcats o.1 o.2 (((multiStack inv (ts.map save)).aux.filter fun a => specName a.1 = n).map (·.2))
      (((multiStack inv (ts.map save)).maps.filter fun a => specName a.1 = n).map (·.2))
    refine ⟨e, ?_⟩
    unfold stackColumn
    dsimp only
    rw [hms]
    cases hM : specMeta ((ts.map save).map (·.metas)) n with
    | nil => rw [hM] at hm; cases hm
    | cons x xs =>
      rw [hM] at he hno
      cases x with
      | other cls => have := hno (.other cls) List.mem_cons_self; cases this
      | arr base => dsimp only; rw [he]
      | map => dsimp only; rw [he]
  -- and so does the stack
  have hn : ∃ o, (n, o) ∈ (multiStack inv (ts.map save)).orig := by
    refine ⟨_, List.mem_map.2 ⟨n, ?_, rfl⟩⟩
    rw [List.mem_eraseDups, List.flatMap_map]
    refine List.mem_flatMap.2 ⟨t, ht, ?_⟩
    rw [save_orig_names]
    exact List.mem_map.2 ⟨(n, c), col_mem hc, rfl⟩
  obtain ⟨o, ho⟩ := hn
  obtain ⟨e, he⟩ := hcol o
  exact mapM_error _ _ (n, o) ho e he

end Verif.SdsStack
