import Verif.Asof.Props
import Mathlib.Algebra.Order.Group.Unbundled.Abs

/-!
# C08: nearest as-of merge

Here subtraction is that of an ordered commutative group (no rounding, no wrap-around).
-/
namespace Verif.Asof
open Verif.Merge (applyWrites applyWrites_getElem?_mem applyWrites_length)
section
variable {α : Type} [AddCommGroup α] [LinearOrder α] [IsOrderedAddMonoid α]

/-- rows at the key itself are not eligible when exact matches are not allowed -/
def Eligible (exact : Bool) (x y : α) : Prop := exact = true ∨ y ≠ x

/-- `r` is an eligible row within tolerance at minimal distance from `x`; among rows at
equal distance the ones at or before `x` win, and of those the last one (after `x`:
the first one).  No row only if no eligible row is within tolerance. -/
def IsNearest (exact : Bool) (tol : Option α) (cand : Nat → α → Prop) (x : α) (r : Option Nat) : Prop :=
  (r = none → ∀ j y, cand j y → Eligible exact x y → ¬ Within tol |x - y|) ∧
  ∀ j, r = some j → ∃ y, cand j y ∧ Eligible exact x y ∧ Within tol |x - y| ∧
    ∀ j' y', cand j' y' → Eligible exact x y' → |x - y| ≤ |x - y'| ∧
      (|x - y'| = |x - y| → (y' ≤ x → y ≤ x ∧ j' ≤ j) ∧ (x < y → j ≤ j'))

omit [AddCommGroup α] [IsOrderedAddMonoid α] in
theorem eligible_iff (exact : Bool) (x y : α) :
    Eligible exact x y ↔ Before exact y x ∨ Before exact x y := by
  cases exact <;> simp [Eligible, Before, le_total, lt_or_lt_iff_ne]

omit [AddCommGroup α] [IsOrderedAddMonoid α] in
theorem Before.le {exact : Bool} {x y : α} (h : Before exact x y) : x ≤ y := by
  cases exact
  · exact le_of_lt h
  · exact h

theorem abs_before {exact : Bool} {x y : α} (h : Before exact y x) : |x - y| = x - y :=
  abs_of_nonneg (sub_nonneg.mpr h.le)

theorem abs_after {exact : Bool} {x y : α} (h : Before exact x y) : |x - y| = y - x := by
  rw [abs_sub_comm]; exact abs_of_nonneg (sub_nonneg.mpr h.le)

omit [AddCommGroup α] [IsOrderedAddMonoid α] in
theorem within_mono {tol : Option α} {d e : α} (h : Within tol d) (hle : e ≤ d) : Within tol e :=
  fun t ht => le_trans hle (h t ht)

/-- `_merge_asof_combine_into_nearest` for one row -/
def pick (x : α) (key : Nat → α) (rb rf : Option Nat) : Option Nat :=
  match rb, rf with
  | none, r => r
  | some jb, none => some jb
  | some jb, some jf => if x - key jb ≤ key jf - x then some jb else some jf

theorem pick_nearest (exact : Bool) (tol : Option α) (cand : Nat → α → Prop) (x : α) (key : Nat → α)
    (hkey : ∀ j y, cand j y → key j = y)
    (hs : ∀ j y j' y', cand j y → cand j' y' → j ≤ j' → y ≤ y')
    (rb rf : Option Nat) (hb : OutcomeB exact tol cand x rb) (hf : OutcomeF exact tol cand x rf) :
    IsNearest exact tol cand x (pick x key rb rf) := by
  -- a backward winner beats all rows before, a forward winner all rows after
  have hfun : ∀ j y y', cand j y → cand j y' → y = y' := fun j y y' a b => (hkey j y a).symm.trans (hkey j y' b)
  have hone : ∀ j y, cand j y → Before exact y x → (∀ j' y', cand j' y' → Before exact y' x → j' ≤ j) →
      ∀ j' y', cand j' y' → Before exact y' x → x - y ≤ x - y' :=
    fun j y c _ h j' y' c' b' => sub_le_sub_left (hs j' y' j y c' c (h j' y' c' b')) x
  have htwo : ∀ j y, cand j y → Before exact x y → (∀ j' y', cand j' y' → Before exact x y' → j ≤ j') →
      ∀ j' y', cand j' y' → Before exact x y' → y - x ≤ y' - x :=
    fun j y c _ h j' y' c' b' => sub_le_sub_right (hs j y j' y' c c' (h j' y' c' b')) x
  -- a row both before and after (key equal to `x`)
  rcases hb with ⟨jb, yb, cb, bb, mb, hb⟩ | ⟨nb, rfl⟩
  · have db := hone jb yb cb bb mb
    rcases hf with ⟨jf, yf, cf, bf, mf, hf⟩ | ⟨nf, rfl⟩
    · have df := htwo jf yf cf bf mf
      rcases hb with ⟨wb, rfl⟩ | ⟨wb, rfl⟩
      · -- backward within tolerance
        have hwin : x - yb ≤ yf - x → IsNearest exact tol cand x (some jb) := by
          intro hle
          refine ⟨fun h => by simp at h, fun j hj => ?_⟩
          obtain rfl := Option.some.inj hj
          refine ⟨yb, cb, (eligible_iff _ _ _).mpr (Or.inl bb), by rw [abs_before bb]; exact wb, fun j' y' c' e' => ?_⟩
          rw [abs_before bb]
          rcases (eligible_iff _ _ _).mp e' with b' | b'
          · rw [abs_before b']
            exact ⟨db j' y' c' b', fun _ => ⟨fun _ => ⟨bb.le, mb j' y' c' b'⟩, fun h => absurd bb.le (not_le.mpr h)⟩⟩
          · rw [abs_after b']
            refine ⟨le_trans hle (df j' y' c' b'), fun _ => ⟨fun hle' => ⟨bb.le, ?_⟩, fun h => absurd bb.le (not_le.mpr h)⟩⟩
            have hxy : y' = x := le_antisymm hle' b'.le
            have : Before exact y' x := by rw [hxy] at b' ⊢; exact b'
            exact mb j' y' c' this
        rcases hf with ⟨wf, rfl⟩ | ⟨wf, rfl⟩
        · show IsNearest exact tol cand x (if x - key jb ≤ key jf - x then some jb else some jf)
          rw [hkey jb yb cb, hkey jf yf cf]
          split
          · next h => exact hwin h
          · next h =>
            rw [not_le] at h
            refine ⟨fun h => by simp at h, fun j hj => ?_⟩
            obtain rfl := Option.some.inj hj
            refine ⟨yf, cf, (eligible_iff _ _ _).mpr (Or.inr bf), by rw [abs_after bf]; exact wf, fun j' y' c' e' => ?_⟩
            rw [abs_after bf]
            rcases (eligible_iff _ _ _).mp e' with b' | b'
            · rw [abs_before b']
              have hlt : yf - x < x - y' := lt_of_lt_of_le h (db j' y' c' b')
              exact ⟨hlt.le, fun he => absurd he (ne_of_gt hlt)⟩
            · rw [abs_after b']
              refine ⟨df j' y' c' b', fun he => ⟨fun hle' => ?_, fun _ => mf j' y' c' b'⟩⟩
              have hxy : y' = x := le_antisymm hle' b'.le
              rw [hxy, sub_self] at he
              have : yf - x < x - yb := h
              have h2 : Before exact y' x := by rw [hxy] at b' ⊢; exact b'
              have := lt_of_lt_of_le h (db j' y' c' h2)
              rw [hxy, sub_self] at this
              exact absurd this (not_lt.mpr (le_of_eq he))
        · -- forward out of tolerance: farther than backward
          apply hwin
          by_contra hcon
          rw [not_le] at hcon
          exact wf (within_mono wb hcon.le)
      · -- backward out of tolerance
        rcases hf with ⟨wf, rfl⟩ | ⟨wf, rfl⟩
        · show IsNearest exact tol cand x (some jf)
          refine ⟨fun h => by simp at h, fun j hj => ?_⟩
          obtain rfl := Option.some.inj hj
          refine ⟨yf, cf, (eligible_iff _ _ _).mpr (Or.inr bf), by rw [abs_after bf]; exact wf, fun j' y' c' e' => ?_⟩
          rw [abs_after bf]
          have hlt : yf - x < x - yb := by
            by_contra hcon
            rw [not_lt] at hcon
            exact wb (within_mono wf hcon)
          rcases (eligible_iff _ _ _).mp e' with b' | b'
          · rw [abs_before b']
            have hlt : yf - x < x - y' := lt_of_lt_of_le hlt (db j' y' c' b')
            exact ⟨hlt.le, fun he => absurd he (ne_of_gt hlt)⟩
          · rw [abs_after b']
            refine ⟨df j' y' c' b', fun he => ⟨fun hle' => ?_, fun _ => mf j' y' c' b'⟩⟩
            have hxy : y' = x := le_antisymm hle' b'.le
            have h2 : Before exact y' x := by rw [hxy] at b' ⊢; exact b'
            have := lt_of_lt_of_le hlt (db j' y' c' h2)
            rw [hxy, sub_self] at he this
            exact absurd this (not_lt.mpr (le_of_eq he))
        · show IsNearest exact tol cand x none
          refine ⟨fun _ j' y' c' e' hw => ?_, fun j hj => by simp at hj⟩
          rcases (eligible_iff _ _ _).mp e' with b' | b'
          · rw [abs_before b'] at hw
            exact wb (within_mono hw (db j' y' c' b'))
          · rw [abs_after b'] at hw
            exact wf (within_mono hw (df j' y' c' b'))
  -- no row after
    · rcases hb with ⟨wb, rfl⟩ | ⟨wb, rfl⟩
      · show IsNearest exact tol cand x (some jb)
        refine ⟨fun h => by simp at h, fun j hj => ?_⟩
        obtain rfl := Option.some.inj hj
        refine ⟨yb, cb, (eligible_iff _ _ _).mpr (Or.inl bb), by rw [abs_before bb]; exact wb, fun j' y' c' e' => ?_⟩
        rw [abs_before bb]
        rcases (eligible_iff _ _ _).mp e' with b' | b'
        · rw [abs_before b']
          exact ⟨db j' y' c' b', fun _ => ⟨fun _ => ⟨bb.le, mb j' y' c' b'⟩, fun h => absurd bb.le (not_le.mpr h)⟩⟩
        · exact absurd b' (nf j' y' c')
      · show IsNearest exact tol cand x none
        refine ⟨fun _ j' y' c' e' hw => ?_, fun j hj => by simp at hj⟩
        rcases (eligible_iff _ _ _).mp e' with b' | b'
        · rw [abs_before b'] at hw
          exact wb (within_mono hw (db j' y' c' b'))
        · exact nf j' y' c' b'
  · -- no row before
    show IsNearest exact tol cand x rf
    rcases hf with ⟨jf, yf, cf, bf, mf, hf⟩ | ⟨nf, rfl⟩
    · have df := htwo jf yf cf bf mf
      rcases hf with ⟨wf, rfl⟩ | ⟨wf, rfl⟩
      · refine ⟨fun h => by simp at h, fun j hj => ?_⟩
        obtain rfl := Option.some.inj hj
        refine ⟨yf, cf, (eligible_iff _ _ _).mpr (Or.inr bf), by rw [abs_after bf]; exact wf, fun j' y' c' e' => ?_⟩
        rw [abs_after bf]
        rcases (eligible_iff _ _ _).mp e' with b' | b'
        · exact absurd b' (nb j' y' c')
        · rw [abs_after b']
          refine ⟨df j' y' c' b', fun he => ⟨fun hle' => ?_, fun _ => mf j' y' c' b'⟩⟩
          have hxy : y' = x := le_antisymm hle' b'.le
          exact absurd (show Before exact y' x by rw [hxy] at b' ⊢; exact b') (nb j' y' c')
      · refine ⟨fun _ j' y' c' e' hw => ?_, fun j hj => by simp at hj⟩
        rcases (eligible_iff _ _ _).mp e' with b' | b'
        · exact nb j' y' c' b'
        · rw [abs_after b'] at hw
          exact wf (within_mono hw (df j' y' c' b'))
    · refine ⟨fun _ j' y' c' e' hw => ?_, fun j hj => by simp at hj⟩
      rcases (eligible_iff _ _ _).mp e' with b' | b'
      · exact nb j' y' c' b'
      · exact nf j' y' c' b'

/-- the combination kernel, row by row, when both results point to valid rows -/
theorem combine_getElem? (left right : List α) (b f : List (Option Nat)) (d : α) (i : Nat) (x : α)
    (hx : left[i]? = some x) (rb rf : Option Nat) (h1 : b[i]? = some rb) (h2 : f[i]? = some rf)
    (v1 : ∀ j, rb = some j → j < right.length) (v2 : ∀ j, rf = some j → j < right.length) :
    (combine (right.map some) (left.map some) b f)[i]? = some (pick x (fun j => right.getD j d) rb rf) := by
  have hi := (List.getElem?_eq_some_iff.mp hx).1
  unfold combine
  rw [List.getElem?_map, List.getElem?_range (by simpa using hi)]
  simp only [Option.map_some, List.getD_eq_getElem?_getD, h1, h2, Option.getD_some, pick]
  cases rb with
  | none => rfl
  | some jb =>
    cases rf with
    | none => rfl
    | some jf =>
      have e1 := v1 jb rfl
      have e2 := v2 jf rfl
      simp [hx, e1, e2]

theorem OutcomeB.cand {exact : Bool} {tol : Option α} {cand : Nat → α → Prop} {x : α}
    {r : Option Nat} (h : OutcomeB exact tol cand x r) : ∀ j, r = some j → ∃ y, cand j y := by
  intro j hj
  rcases h with ⟨i, y, h1, h2, h3, ⟨_, h4⟩ | ⟨_, h4⟩⟩ | ⟨h1, h2⟩
  · rw [h4] at hj; obtain rfl := Option.some.inj hj; exact ⟨y, h1⟩
  · rw [h4] at hj; simp at hj
  · rw [h2] at hj; simp at hj

theorem OutcomeF.cand {exact : Bool} {tol : Option α} {cand : Nat → α → Prop} {x : α}
    {r : Option Nat} (h : OutcomeF exact tol cand x r) : ∀ j, r = some j → ∃ y, cand j y := by
  intro j hj
  rcases h with ⟨i, y, h1, h2, h3, ⟨_, h4⟩ | ⟨_, h4⟩⟩ | ⟨h1, h2⟩
  · rw [h4] at hj; obtain rfl := Option.some.inj hj; exact ⟨y, h1⟩
  · rw [h4] at hj; simp at hj
  · rw [h2] at hj; simp at hj

omit [AddCommGroup α] [IsOrderedAddMonoid α] in
theorem checkFlags_both {s t : St α} (h : s.clean) (h' : t.clean) (out : List (Option Nat)) :
    checkFlags (s.hbad.isSome || t.hbad.isSome) (s.nbad.isSome || t.nbad.isSome) out = .ok out := by
  simp [checkFlags, h.1, h.2, h'.1, h'.2]

/-- C08.  For sorted columns of valid keys the nearest as-of merge gives every left row a
right row at minimal distance within tolerance, ties to the backward row. -/
theorem asof_nearest_correct (b : Bounds α) (tol : Option α) (exact : Bool) (left right : List α)
    (hl : left.Pairwise (· ≤ ·)) (hr : right.Pairwise (· ≤ ·))
    (bl : ∀ x ∈ left, b.loN ≤ x ∧ x ≤ b.hiN) (br : ∀ y ∈ right, b.loH ≤ y ∧ y ≤ b.hiH) :
    ∃ out, asofIndices b tol exact .nearest (left.map some) (right.map some) = .ok out ∧
      out.length = left.length ∧
      ∀ (i : Nat) (x : α), left[i]? = some x →
        ∃ r, out[i]? = some r ∧ IsNearest exact tol (fun j y => right[j]? = some y) x r := by
  obtain ⟨b1, b2⟩ := bwd_flat b.loN b.loH tol exact left right hl hr (fun x h => (bl x h).1) (fun x h => (br x h).1)
  obtain ⟨f1, f2⟩ := fwd_flat b.hiN b.hiH tol exact left right hl hr (fun x h => (bl x h).2) (fun x h => (br x h).2)
  simp only [asofIndices, List.length_map]
  refine ⟨_, checkFlags_both b1 f1 _, ?_, ?_⟩
  · simp [combine]
  · intro i x hx
    obtain ⟨rb, e1, e2⟩ := b2 i x hx
    obtain ⟨rf, e3, e4⟩ := f2 i x hx
    refine ⟨_, combine_getElem? left right _ _ 0 i x hx rb rf e1 e3 ?_ ?_, ?_⟩
    · intro j hj
      obtain ⟨y, hy⟩ := e2.cand j hj
      exact (List.getElem?_eq_some_iff.mp hy).1
    · intro j hj
      obtain ⟨y, hy⟩ := e4.cand j hj
      exact (List.getElem?_eq_some_iff.mp hy).1
    · refine pick_nearest exact tol _ x _ ?_ ?_ rb rf e2 e4
      · intro j y hy
        simp [List.getD_eq_getElem?_getD, hy]
      · intro j y j' y' h h' hle
        obtain ⟨a1, rfl⟩ := List.getElem?_eq_some_iff.mp h
        obtain ⟨a2, rfl⟩ := List.getElem?_eq_some_iff.mp h'
        rcases Nat.lt_or_eq_of_le hle with hlt | rfl
        · exact List.pairwise_iff_getElem.mp hr _ _ a1 a2 hlt
        · exact le_rfl

example : asofIndices ⟨-100, -100, 100, 100⟩ (some (3 : Int)) true .nearest
    ([1, 4, 6, 9, 20].map some) ([2, 4, 4, 8, 30].map some) =
      .ok [some 0, some 2, some 2, some 3, (none : Option Nat)] := by decide

end
end Verif.Asof
