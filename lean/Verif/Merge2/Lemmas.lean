import Verif.Merge2.Names

/-!
# Assembling the output dictionary; shape of the join indices
-/
namespace Verif.Merge2
open Verif.Merge Verif.Items

section
variable {W : Type}

/-- a run of assignments -/
def setAll (l : List (Name × W)) (o : Dict Name W) : Dict Name W := l.foldl (fun o p => o.set p.1 p.2) o

theorem keys_setAll (l : List (Name × W)) (o : Dict Name W) (k : Name) :
    k ∈ (setAll l o).keys ↔ k ∈ l.map Prod.fst ∨ k ∈ o.keys := by
  induction l generalizing o with
  | nil => simp [setAll]
  | cons p l ih =>
    rw [setAll, List.foldl_cons, ← setAll, ih, Dict.mem_keys_set, List.map_cons, List.mem_cons]
    tauto

theorem nodup_setAll (l : List (Name × W)) (o : Dict Name W) (h : o.keys.Nodup) : (setAll l o).keys.Nodup := by
  induction l generalizing o with
  | nil => exact h
  | cons p l ih => rw [setAll, List.foldl_cons, ← setAll]; exact ih _ (Dict.nodup_set h _ _)

theorem get_setAll_of_notMem (l : List (Name × W)) (o : Dict Name W) (k : Name) (h : k ∉ l.map Prod.fst) :
    (setAll l o).get k = o.get k := by
  induction l generalizing o with
  | nil => rfl
  | cons p l ih =>
    rw [List.map_cons, List.mem_cons, not_or] at h
    rw [setAll, List.foldl_cons, ← setAll, ih _ h.2, Dict.get_set, if_neg h.1]

theorem get_setAll_of_mem (l : List (Name × W)) (o : Dict Name W) (k : Name) (v : W)
    (h : k ∈ l.map Prod.fst) (hv : ∀ p ∈ l, p.1 = k → p.2 = v) : (setAll l o).get k = some v := by
  induction l generalizing o with
  | nil => simp at h
  | cons p l ih =>
    rw [setAll, List.foldl_cons, ← setAll]
    by_cases hk : k ∈ l.map Prod.fst
    · exact ih _ hk fun q hq => hv q (List.mem_cons_of_mem _ hq)
    · rw [get_setAll_of_notMem _ _ _ hk, Dict.get_set]
      rw [List.map_cons, List.mem_cons] at h
      have e := h.resolve_right hk
      rw [if_pos e, hv p (List.mem_cons_self) e.symm]

/-- every value in the dictionary after a run of assignments satisfies `P` -/
theorem forall_setAll (P : W → Prop) (l : List (Name × W)) (o : Dict Name W)
    (h1 : ∀ p ∈ o, P p.2) (h2 : ∀ p ∈ l, P p.2) : ∀ p ∈ setAll l o, P p.2 := by
  induction l generalizing o with
  | nil => exact h1
  | cons p l ih =>
    rw [setAll, List.foldl_cons, ← setAll]
    refine ih _ ?_ fun q hq => h2 q (List.mem_cons_of_mem _ hq)
    intro q hq
    unfold Dict.set at hq
    split at hq
    · rw [List.mem_map] at hq
      obtain ⟨e, he, rfl⟩ := hq
      split
      · exact h2 p List.mem_cons_self
      · exact h1 e he
    · rw [List.mem_append, List.mem_singleton] at hq
      rcases hq with hq | rfl
      · exact h1 q hq
      · exact h2 p List.mem_cons_self

end

section
variable {V : Type} [DecidableEq V]

theorem addCols_eq (inv : V) (ds : DS V) (fi : Option (List (Option Nat))) (olds : List Name)
    (f : Name → Name) (out : Dict Name (List V)) :
    addCols inv ds fi olds (olds.map f) out = setAll (olds.map fun c => (f c, fetch inv (ds.col c) fi)) out := by
  unfold addCols setAll
  rw [List.zip_map_right, List.foldl_map, List.foldl_map]
  rw [show olds.zip olds = olds.map fun c => (c, c) from by
    induction olds with
    | nil => rfl
    | cons a l ih => simp [ih]]
  rw [List.foldl_map]
  rfl

theorem addKeys_ok (inv : V) (how : How) (j : JoinIndices) (left right : DS V) (cs : List Name)
    (val : Name → List V) (hv : ∀ c ∈ cs, keyColumn inv how j (left.col c) (right.col c) = .ok (val c))
    (out : Dict Name (List V)) :
    addKeys inv how j left right cs out = .ok (setAll (cs.map fun c => (c, val c)) out) := by
  induction cs generalizing out with
  | nil => rfl
  | cons c cs ih =>
    unfold addKeys
    rw [hv c List.mem_cons_self]
    dsimp only
    rw [ih fun c' hc' => hv c' (List.mem_cons_of_mem _ hc')]
    rfl

/-- reading a column through a selector gives one value per row pair -/
theorem fetch_left {nl nr : Nat} {j : JoinIndices} {rows : List (Option Nat × Option Nat)}
    (h : j.rows nl nr = some rows) (inv : V) (col : List V) (hc : col.length = nl) :
    fetch inv col j.left = rows.map fun p => cell inv col p.1 := by
  unfold JoinIndices.rows at h
  dsimp only at h
  split at h
  · rename_i hlen
    cases h
    have h1 : ∀ (l r : List (Option Nat)), l.length = r.length →
        (l.zip r).map (fun p => cell inv col p.1) = l.map (cell inv col) := by
      intro l r hl
      rw [show (fun p : Option Nat × Option Nat => cell inv col p.1) = cell inv col ∘ Prod.fst from rfl,
        ← List.map_map, List.map_fst_zip hl.le]
    rw [h1 _ _ hlen]
    cases hj : j.left with
    | none =>
      simp only [fetch, Option.getD_none, List.map_map]
      apply List.ext_getElem
      · simp [hc]
      · intro i h1 h2
        simp [cell, h1]
    | some l =>
      simp only [fetch, Option.getD_some, mbget]
      apply List.map_congr_left
      intro o _
      cases o <;> rfl
  · cases h

theorem map_swap_zip {α β : Type} (l : List α) (r : List β) : (l.zip r).map Prod.swap = r.zip l := by
  induction l generalizing r with
  | nil => simp
  | cons a l ih =>
    cases r with
    | nil => rfl
    | cons b r => simp [ih]

theorem rows_swap' {nl nr : Nat} {j : JoinIndices} {rows : List (Option Nat × Option Nat)}
    (h : j.rows nl nr = some rows) :
    JoinIndices.rows nr nl ⟨j.right, j.left, none⟩ = some (rows.map Prod.swap) := by
  unfold JoinIndices.rows at h ⊢
  dsimp only at h ⊢
  split at h
  · rename_i hlen
    cases h
    rw [if_pos hlen.symm]
    congr 1
    exact (map_swap_zip _ _).symm
  · cases h

theorem fetch_right {nl nr : Nat} {j : JoinIndices} {rows : List (Option Nat × Option Nat)}
    (h : j.rows nl nr = some rows) (inv : V) (col : List V) (hc : col.length = nr) :
    fetch inv col j.right = rows.map fun p => cell inv col p.2 := by
  have := fetch_left (rows_swap' h) inv col hc
  rw [this, List.map_map]
  rfl

/-- What the assembly of a common key column relies on: outside the special outer case the
side it is read from is present in every row; in the outer case the last `k` rows are the ones
without a left row. -/
def KeyShape (how : How) (nl : Nat) (j : JoinIndices) (rows : List (Option Nat × Option Nat)) : Prop :=
  if how = .outer ∧ j.rightOnly.getD 0 > 0 then
    ∃ (l : List Nat) (r : List (Option Nat)) (ro : List Nat), ro.length = j.rightOnly.getD 0 ∧
      j.left = some (l.map some ++ ro.map fun _ => none) ∧ j.right = some (r ++ ro.map some)
  else if j.left = none ∨ j.right = none then True
  else if how = .right then ∀ p ∈ rows, p.2.isSome
  else ∀ p ∈ rows, p.1.isSome

theorem keyColumn_ok {how : How} {nl nr : Nat} {j : JoinIndices} {rows : List (Option Nat × Option Nat)}
    (h : j.rows nl nr = some rows) (hs : KeyShape how nl j rows) (inv : V) (lcol rcol : List V)
    (hl : lcol.length = nl) (hr : rcol.length = nr)
    (hagree : ∀ i k, (some i, some k) ∈ rows → lcol.getD i inv = rcol.getD k inv) :
    keyColumn inv how j lcol rcol = .ok (rows.map (keyCell inv lcol rcol)) := by
  have hrows : ∀ p ∈ rows, p.2.isSome → cell inv rcol p.2 = keyCell inv lcol rcol p := by
    rintro ⟨p1, p2⟩ hp h2
    obtain ⟨k, rfl⟩ := Option.isSome_iff_exists.mp h2
    cases p1 with
    | none => rfl
    | some i => exact (hagree i k hp).symm
  have lrows : ∀ p ∈ rows, p.1.isSome → cell inv lcol p.1 = keyCell inv lcol rcol p := by
    rintro ⟨p1, p2⟩ hp h1
    obtain ⟨i, rfl⟩ := Option.isSome_iff_exists.mp h1
    rfl
  have fl := fetch_left h inv lcol hl
  have fr := fetch_right h inv rcol hr
  unfold keyColumn
  unfold KeyShape at hs
  split
  · rename_i hcase
    rw [if_pos hcase] at hs
    obtain ⟨l, r, ro, hk, h1, h2⟩ := hs
    simp only [h1, h2]
    congr 1
    unfold JoinIndices.rows at h
    simp only [h1, h2, Option.getD_some, List.length_append, List.length_map] at h
    split at h
    · rename_i hlen
      have hlen' : l.length = r.length := by omega
      cases h
      rw [List.zip_append (by simp [hlen']), List.map_append]
      have e1 : List.take ((l.map some).length + (ro.map fun _ => (none : Option Nat)).length - j.rightOnly.getD 0)
          (l.map some ++ ro.map fun _ => none) = l.map some := by
        rw [← hk]; simp
      have e2 : lastN (r ++ ro.map some) (j.rightOnly.getD 0) = ro.map some := by
        unfold lastN; rw [← hk]; simp
      rw [List.length_append, e1, e2]
      congr 1
      · rw [show (keyCell inv lcol rcol) = (keyCell inv lcol rcol) from rfl]
        clear hagree hrows lrows fl fr h1 h2 e1 e2 hlen
        unfold mbget
        induction l generalizing r with
        | nil => simp
        | cons a l ih =>
          cases r with
          | nil => simp at hlen'
          | cons b r =>
            simp only [List.length_cons, Nat.add_right_cancel_iff] at hlen'
            simp only [List.map_cons, List.zip_cons_cons]
            rw [ih r hlen']; rfl
      · clear hagree hrows lrows fl fr h1 h2 e1 e2 hlen hk
        unfold mbget
        induction ro with
        | nil => rfl
        | cons a ro ih =>
          simp only [List.map_cons, List.zip_cons_cons]
          rw [ih]; rfl
    · cases h
  · rename_i hcase
    rw [if_neg hcase] at hs
    cases hjl : j.left with
    | none =>
      simp only
      rw [hjl] at fl
      congr 1
      conv_lhs => rw [show lcol = fetch inv lcol none from rfl, fl]
      apply List.map_congr_left
      intro p hp
      apply lrows p hp
      unfold JoinIndices.rows at h
      simp only [hjl, Option.getD_none] at h
      split at h
      · cases h
        have := List.of_mem_zip (a := p.1) (b := p.2) hp
        rw [List.mem_map] at this
        obtain ⟨⟨a, _, ha⟩, _⟩ := this
        rw [← ha]; rfl
      · cases h
    | some fil =>
      simp only
      cases hjr : j.right with
      | none =>
        simp only
        rw [hjr] at fr
        congr 1
        conv_lhs => rw [show rcol = fetch inv rcol none from rfl, fr]
        apply List.map_congr_left
        intro p hp
        apply hrows p hp
        unfold JoinIndices.rows at h
        simp only [hjl, hjr, Option.getD_none, Option.getD_some] at h
        split at h
        · cases h
          have := List.of_mem_zip (a := p.1) (b := p.2) hp
          rw [List.mem_map] at this
          obtain ⟨_, ⟨a, _, ha⟩⟩ := this
          rw [← ha]; rfl
        · cases h
      | some fir =>
        simp only
        rw [if_neg (by simp [hjl, hjr])] at hs
        rw [hjl] at fl
        rw [hjr] at fr
        split
        · rename_i hh
          rw [if_pos hh] at hs
          congr 1
          rw [show mbget inv rcol fir = fetch inv rcol (some fir) from rfl, fr]
          exact List.map_congr_left fun p hp => hrows p hp (hs p hp)
        · rename_i hh
          rw [if_neg hh] at hs
          congr 1
          rw [show mbget inv lcol fil = fetch inv lcol (some fil) from rfl, fl]
          exact List.map_congr_left fun p hp => lrows p hp (hs p hp)

/-- the indicator codes are the side codes of the row pairs -/
theorem indicatorCodes_eq {nl nr : Nat} {j : JoinIndices} {rows : List (Option Nat × Option Nat)}
    (h : j.rows nl nr = some rows) (hone : j.left ≠ none ∨ j.right ≠ none) :
    indicatorCodes j = rows.map sideCode := by
  unfold JoinIndices.rows at h
  dsimp only at h
  split at h
  · rename_i hlen
    cases h
    unfold indicatorCodes
    have z : ∀ (l r : List (Option Nat)), l.length = r.length →
        List.zipWith (· + ·) (l.map fun o => if o.isSome then 1 else 0) (r.map fun o => if o.isSome then 2 else 0) =
          (l.zip r).map sideCode := by
      intro l
      induction l with
      | nil => simp
      | cons a l ih =>
        intro r hr
        cases r with
        | nil => simp at hr
        | cons b r =>
          simp only [List.length_cons, Nat.add_right_cancel_iff] at hr
          simp only [List.map_cons, List.zipWith_cons_cons, List.zip_cons_cons, ih r hr]
          cases a <;> cases b <;> rfl
    have rng : ∀ a n, List.replicate n a = ((List.range n).map some).map fun o : Option Nat => if o.isSome then a else 0 := by
      intro a n
      rw [List.map_map, show ((fun o : Option Nat => if o.isSome then a else 0) ∘ some) = fun _ => a from rfl]
      simp
    cases hl : j.left with
    | none =>
      cases hr : j.right with
      | none => simp [hl, hr] at hone
      | some r =>
        simp only [hl, hr, Option.getD_none, Option.getD_some] at hlen ⊢
        rw [← z _ _ hlen]
        simp only [goodFlag, Option.map_none, Option.map_some, Option.orElse_none, Option.getD_some]
        simp only [List.length_map, List.length_range] at hlen
        rw [← hlen, rng 1 nl]
    | some l =>
      simp only [hl, Option.getD_some] at hlen ⊢
      rw [← z _ _ hlen]
      cases hr : j.right with
      | some r => simp [goodFlag]
      | none =>
        simp only [hr, Option.getD_none, List.length_map, List.length_range] at hlen
        simp only [goodFlag, Option.getD_none, Option.map_some, Option.orElse_some, Option.getD_some]
        rw [hlen, rng 2 nr]
  · cases h

end
end Verif.Merge2
