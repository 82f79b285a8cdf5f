import Verif.Arrow.Model
import Verif.NpOps.Types
/-! # Numbers to Arrow and back (C184 - C186) -/
namespace Verif.Arrow
open Verif.NpOps

theorem least_le_greatest (sg : Bool) (w : Fin 4) : least sg w < greatest sg w := by
  revert sg w; decide +kernel

/-- the numbers of an array are those of its type -/
def IntArr.WF (a : IntArr) : Prop := ∀ v ∈ a.vals, least a.sg a.w ≤ v ∧ v ≤ greatest a.sg a.w

theorem mem_present {A : Type} {rows : List (Option A)} {v : A} : v ∈ present rows ↔ some v ∈ rows := by
  unfold present; simp

/-- the check for the invalid value finds it -/
theorem extreme_iff {sg : Bool} {w : Fin 4} {rows : List (Option Int)} (hf : Fits sg w rows) :
    ((present rows).min? = some (missing sg w) ∨ (present rows).max? = some (missing sg w)) ↔ some (missing sg w) ∈ rows := by
  constructor
  · rintro (h | h)
    · exact mem_present.1 (List.min?_mem h)
    · exact mem_present.1 (List.max?_mem h)
  · intro h
    rw [← mem_present] at h
    cases sg with
    | true =>
      left
      rw [List.min?_eq_some_iff]
      exact ⟨h, fun b hb => (hf b (mem_present.1 hb)).1⟩
    | false =>
      right
      rw [List.max?_eq_some_iff]
      exact ⟨h, fun b hb => (hf b (mem_present.1 hb)).2⟩

/-- the type after the one with 8 · 2 ^ `w` bits -/
def after (w : Fin 4) (h : w ≠ 3) : Fin 4 := ⟨w.val + 1, by have := w.isLt; have : w.val ≠ 3 := fun e => h (Fin.ext e); omega⟩

theorem widened (sg : Bool) (w : Fin 4) (h : w ≠ 3) : minScalarType (missing sg w) true false = .int sg (after w h) := by
  revert sg w; decide +kernel

theorem fromArrowOne_eq {zc widen sg : Bool} {w : Fin 4} {rows : List (Option Int)} (hf : Fits sg w rows) (a : IntArr) :
    fromArrowOne zc widen sg w rows = .ok a ↔ (zc = true → none ∉ rows) ∧
      ((some (missing sg w) ∉ rows ∧ a = ⟨sg, w, fillNull (missing sg w) rows⟩) ∨
       (some (missing sg w) ∈ rows ∧ zc = false ∧ widen = true ∧ ∃ h : w ≠ 3, a = ⟨sg, after w h, fillNull (missing sg w) rows⟩)) := by
  unfold fromArrowOne
  by_cases h1 : zc = true ∧ none ∈ rows
  · rw [if_pos h1]
    constructor
    · intro h; cases h
    · rintro ⟨h, _⟩; exact absurd h1.2 (h h1.1)
  have h1' : zc = true → none ∉ rows := fun hz hn => h1 ⟨hz, hn⟩
  rw [if_neg h1]
  by_cases h2 : some (missing sg w) ∈ rows
  · rw [if_pos ((extreme_iff hf).2 h2)]
    cases zc with
    | true =>
      rw [if_pos rfl]
      constructor
      · intro h; cases h
      · rintro ⟨_, ⟨h, _⟩ | ⟨_, h, _⟩⟩
        · exact absurd h2 h
        · cases h
    | false =>
      rw [if_neg (by simp)]
      by_cases h3 : w = 3
      · rw [if_pos h3]
        constructor
        · intro h; cases h
        · rintro ⟨_, ⟨h, _⟩ | ⟨_, _, _, h, _⟩⟩
          · exact absurd h2 h
          · exact absurd h3 h
      · rw [if_neg h3]
        cases widen with
        | false =>
          rw [if_pos rfl]
          constructor
          · intro h; cases h
          · rintro ⟨_, ⟨h, _⟩ | ⟨_, _, h, _⟩⟩
            · exact absurd h2 h
            · cases h
        | true =>
          rw [if_neg (by simp), widened sg w h3]
          constructor
          · intro h; cases h; exact ⟨h1', Or.inr ⟨h2, rfl, rfl, h3, rfl⟩⟩
          · rintro ⟨_, ⟨h, _⟩ | ⟨_, _, _, _, h⟩⟩
            · exact absurd h2 h
            · rw [h]
  · rw [if_neg (fun h => h2 ((extreme_iff hf).1 h))]
    constructor
    · intro h; cases h; exact ⟨h1', Or.inl ⟨h2, rfl⟩⟩
    · rintro ⟨_, ⟨_, h⟩ | ⟨h, _⟩⟩
      · rw [h]
      · exact absurd h h2

theorem fits_chunk {sg : Bool} {w : Fin 4} {chunks : List (List (Option Int))} (hf : Fits sg w chunks.flatten) {c : List (Option Int)} (hc : c ∈ chunks) :
    Fits sg w c := fun v hv => hf v (List.mem_flatten.2 ⟨c, hc, hv⟩)

theorem mapM_ok {A B E : Type} {f : A → Except E B} {l : List A} {r : List B} :
    l.mapM f = .ok r ↔ List.Forall₂ (fun a b => f a = .ok b) l r := by
  induction l generalizing r with
  | nil =>
    rw [List.mapM_nil]
    constructor
    · intro h; cases h; exact .nil
    · intro h; cases h; rfl
  | cons a l ih =>
    rw [List.mapM_cons]
    cases ha : f a with
    | error e =>
      constructor
      · intro h; cases h
      · intro h; cases h with | cons h1 _ => rw [ha] at h1; cases h1
    | ok b =>
      cases hl : l.mapM f with
      | error e =>
        constructor
        · intro h; cases h
        · intro h
          cases h with
          | cons h1 h2 => rw [ih.2 h2] at hl; cases hl
      | ok bs =>
        constructor
        · intro h; cases h; exact .cons ha (ih.1 hl)
        · intro h
          cases h with
          | cons h1 h2 =>
            rw [ha] at h1; cases h1
            rw [ih.2 h2] at hl; cases hl
            rfl

theorem mapM_total {A B E : Type} {f : A → Except E B} {l : List A} (h : ∀ a ∈ l, ∃ b, f a = .ok b) : ∃ r, l.mapM f = .ok r := by
  induction l with
  | nil => exact ⟨[], rfl⟩
  | cons a l ih =>
    obtain ⟨b, hb⟩ := h a List.mem_cons_self
    obtain ⟨r, hr⟩ := ih fun x hx => h x (List.mem_cons_of_mem _ hx)
    exact ⟨b :: r, mapM_ok.2 (.cons hb (mapM_ok.1 hr))⟩

/-- nulls cannot be told from this number -/
theorem fillNull_shown {sg : Bool} {w w' : Fin 4} {rows : List (Option Int)} (h : ∀ v, some v ∈ rows → v ≠ missing sg w')
    (hn : none ∈ rows → w' = w) : shown sg w' (fillNull (missing sg w) rows) = rows := by
  unfold shown fillNull
  rw [List.map_map]
  conv_rhs => rw [← List.map_id rows]
  refine List.map_congr_left fun r hr => ?_
  cases r with
  | none => rw [hn hr]; simp
  | some v => simp [h v hr]

theorem missing_after (sg : Bool) (w : Fin 4) (h : w ≠ 3) (v : Int) (hv : least sg w ≤ v ∧ v ≤ greatest sg w) : v ≠ missing sg (after w h) := by
  rintro rfl
  revert sg w; decide +kernel

/-- a stacked part -/
theorem hstack_part {sg : Bool} {w w' : Fin 4} {vals : List Int} (hv : ∀ v ∈ vals, v ≠ missing sg w) (hw : ∀ v ∈ vals, v ≠ missing sg w') :
    shown sg w' (vals.map fun v => if v = missing sg w then missing sg w' else v) = vals.map some := by
  unfold shown
  rw [List.map_map]
  refine List.map_congr_left fun v h => ?_
  simp [hv v h, hw v h]

theorem foldl_max_mem (l : List (Fin 4)) (a : Fin 4) : l.foldl max a = a ∨ l.foldl max a ∈ l := by
  induction l generalizing a with
  | nil => exact Or.inl rfl
  | cons x xs ih =>
    rw [List.foldl_cons]
    rcases ih (max a x) with h | h
    · rcases max_choice a x with h' | h'
      · left; rw [h, h']
      · right; rw [h, h']; exact List.mem_cons_self
    · right; exact List.mem_cons_of_mem _ h

theorem foldl_max_le (l : List (Fin 4)) (a : Fin 4) : a ≤ l.foldl max a ∧ ∀ x ∈ l, x ≤ l.foldl max a := by
  induction l generalizing a with
  | nil => exact ⟨le_refl _, by simp⟩
  | cons x xs ih =>
    rw [List.foldl_cons]
    obtain ⟨h1, h2⟩ := ih (max a x)
    refine ⟨le_trans (le_max_left _ _) h1, fun y hy => ?_⟩
    rcases List.mem_cons.1 hy with rfl | hy
    · exact le_trans (le_max_right _ _) h1
    · exact h2 y hy

/-- the chunks of an array without nulls -/
theorem chunks_spec {widen sg : Bool} {w : Fin 4} {chunks : List (List (Option Int))} (hf : Fits sg w chunks.flatten) (hn : none ∉ chunks.flatten)
    {as : List IntArr} (h : List.Forall₂ (fun c a => fromArrowOne false widen sg w c = .ok a) chunks as) :
    ∀ a ∈ as, a.sg = sg ∧ (a.w = w ∨ ∃ h : w ≠ 3, a.w = after w h) ∧ (∀ v ∈ a.vals, v ≠ missing sg a.w ∧ least sg w ≤ v ∧ v ≤ greatest sg w) ∧
      (a.w ≠ w → some (missing sg w) ∈ chunks.flatten) := by
  induction h with
  | nil => simp
  | @cons c a cs as h1 h2 ih =>
    have hfc : Fits sg w c := fits_chunk hf List.mem_cons_self
    have hnc : none ∉ c := fun h => hn (by rw [List.flatten_cons]; exact List.mem_append_left _ h)
    have hvals : ∀ v ∈ fillNull (missing sg w) c, some v ∈ c := by
      intro v hv
      unfold fillNull at hv
      obtain ⟨r, hr, rfl⟩ := List.mem_map.1 hv
      cases r with
      | none => exact absurd hr hnc
      | some x => exact hr
    intro b hb
    rcases List.mem_cons.1 hb with rfl | hb
    · obtain ⟨_, ⟨h3, rfl⟩ | ⟨h3, _, _, h4, rfl⟩⟩ := (fromArrowOne_eq hfc _).1 h1
      · refine ⟨rfl, Or.inl rfl, fun v hv => ⟨fun e => h3 (e ▸ hvals v hv), hfc v (hvals v hv)⟩, fun h => absurd rfl h⟩
      · refine ⟨rfl, Or.inr ⟨h4, rfl⟩, fun v hv => ⟨missing_after sg w h4 v (hfc v (hvals v hv)), hfc v (hvals v hv)⟩, fun _ => ?_⟩
        rw [List.flatten_cons]; exact List.mem_append_left _ h3
    · obtain ⟨g1, g2, g3, g4⟩ := ih (fun v hv => hf v (by rw [List.flatten_cons]; exact List.mem_append_right _ hv))
        (fun h => hn (by rw [List.flatten_cons]; exact List.mem_append_right _ h)) b hb
      exact ⟨g1, g2, g3, fun h => by rw [List.flatten_cons]; exact List.mem_append_right _ (g4 h)⟩

theorem ne_missing_wide {sg : Bool} {w a b : Fin 4} (ha : a = w ∨ ∃ h : w ≠ 3, a = after w h) (hb : b = w ∨ ∃ h : w ≠ 3, b = after w h) (hab : a ≤ b)
    {v : Int} (hv : v ≠ missing sg a) (hr : least sg w ≤ v ∧ v ≤ greatest sg w) : v ≠ missing sg b := by
  rcases hb with rfl | ⟨h, rfl⟩
  · rcases ha with rfl | ⟨h, rfl⟩
    · exact hv
    · exfalso
      have : b.val + 1 ≤ b.val := hab
      omega
  · exact missing_after sg w h v hr

/-- the stacked chunks show the rows -/
theorem hstack_spec {widen sg : Bool} {w : Fin 4} {chunks : List (List (Option Int))} (hf : Fits sg w chunks.flatten) (hn : none ∉ chunks.flatten)
    {as : List IntArr} (h : List.Forall₂ (fun c a => fromArrowOne false widen sg w c = .ok a) chunks as) (hne : chunks ≠ []) :
    (hstackInts sg as).sg = sg ∧ ((hstackInts sg as).w = w ∨ ∃ h : w ≠ 3, (hstackInts sg as).w = after w h) ∧
      (hstackInts sg as).vals = fillNull (missing sg w) chunks.flatten ∧ shown sg (hstackInts sg as).w (hstackInts sg as).vals = chunks.flatten ∧
      ((hstackInts sg as).w ≠ w ↔ some (missing sg w) ∈ chunks.flatten) := by
  have hs := chunks_spec hf hn h
  have hasne : as ≠ [] := by
    rintro rfl
    cases h
    exact hne rfl
  obtain ⟨hW1, hW2⟩ := foldl_max_le (as.map fun a => a.w) 0
  have hWm : (hstackInts sg as).w ∈ as.map fun a => a.w := by
    unfold hstackInts
    dsimp only
    rcases foldl_max_mem (as.map fun a => a.w) 0 with h0 | h0
    · cases as with
      | nil => exact absurd rfl hasne
      | cons a as =>
        have : a.w ≤ 0 := h0 ▸ hW2 a.w (by simp)
        have : a.w = 0 := by omega
        rw [h0]; exact List.mem_map.2 ⟨a, List.mem_cons_self, this⟩
    · exact h0
  have hWle : ∀ a ∈ as, a.w ≤ (hstackInts sg as).w := fun a ha => hW2 a.w (List.mem_map.2 ⟨a, ha, rfl⟩)
  obtain ⟨m, hm, hmw⟩ := List.mem_map.1 hWm
  have hWkind : (hstackInts sg as).w = w ∨ ∃ h : w ≠ 3, (hstackInts sg as).w = after w h := by rw [← hmw]; exact (hs m hm).2.1
  have hvals : (hstackInts sg as).vals = fillNull (missing sg w) chunks.flatten := by
    unfold hstackInts
    dsimp only
    have : (as.flatMap fun a => a.vals.map fun v => if v = missing a.sg a.w then missing sg ((as.map fun a => a.w).foldl max 0) else v) =
        as.flatMap fun a => a.vals := by
      refine List.flatMap_congr fun a ha => ?_
      conv_rhs => rw [← List.map_id a.vals]
      refine List.map_congr_left fun v hv => ?_
      obtain ⟨g1, _, g3, _⟩ := hs a ha
      rw [if_neg (by rw [g1]; exact (g3 v hv).1)]; rfl
    rw [this]
    clear this hs hasne hW1 hW2 hWm hWle hmw hWkind m hm hne
    induction h with
    | nil => rfl
    | @cons c a cs as h1 h2 ih =>
      have hfc : Fits sg w c := fits_chunk hf List.mem_cons_self
      have ih := ih (fun v hv => hf v (by rw [List.flatten_cons]; exact List.mem_append_right _ hv))
        (fun h => hn (by rw [List.flatten_cons]; exact List.mem_append_right _ h))
      rw [List.flatMap_cons, List.flatten_cons, ih]
      have : a.vals = fillNull (missing sg w) c := by
        obtain ⟨_, ⟨_, rfl⟩ | ⟨_, _, _, _, rfl⟩⟩ := (fromArrowOne_eq hfc _).1 h1 <;> rfl
      rw [this]; unfold fillNull; rw [List.map_append]
  have hshow : shown sg (hstackInts sg as).w (hstackInts sg as).vals = chunks.flatten := by
    rw [hvals]
    refine fillNull_shown ?_ (fun h => absurd h hn)
    intro v hv
    obtain ⟨c, hc, hvc⟩ := List.mem_flatten.1 hv
    have : ∃ a ∈ as, v ∈ a.vals := by
      clear hs hasne hW1 hW2 hWm hWle hmw hWkind m hm hne hvals hv
      induction h with
      | nil => simp at hc
      | @cons c' a cs as h1 h2 ih =>
        rcases List.mem_cons.1 hc with rfl | hc
        · refine ⟨a, List.mem_cons_self, ?_⟩
          have hfc : Fits sg w c := fits_chunk hf List.mem_cons_self
          have : a.vals = fillNull (missing sg w) c := by
            obtain ⟨_, ⟨_, rfl⟩ | ⟨_, _, _, _, rfl⟩⟩ := (fromArrowOne_eq hfc _).1 h1 <;> rfl
          rw [this]; unfold fillNull
          exact List.mem_map.2 ⟨some v, hvc, rfl⟩
        · obtain ⟨b, hb, hv⟩ := ih (fun v hv => hf v (by rw [List.flatten_cons]; exact List.mem_append_right _ hv))
            (fun h => hn (by rw [List.flatten_cons]; exact List.mem_append_right _ h)) hc
          exact ⟨b, List.mem_cons_of_mem _ hb, hv⟩
    obtain ⟨a, ha, hva⟩ := this
    obtain ⟨g1, g2, g3, _⟩ := hs a ha
    exact ne_missing_wide g2 hWkind (hWle a ha) (g3 v hva).1 (g3 v hva).2
  refine ⟨rfl, hWkind, hvals, hshow, ?_, ?_⟩
  · intro hne'
    rw [← hmw] at hne'
    exact (hs m hm).2.2.2 hne'
  · intro hin hw
    rw [hw] at hshow
    rw [← hshow] at hin
    unfold shown at hin
    obtain ⟨v, _, hv⟩ := List.mem_map.1 hin
    split_ifs at hv with h'
    · simp at hv; exact h' hv

/-- **C186** Exactly which Arrow arrays of integers are converted: with `zero_copy_only` only one chunk without nulls and without the invalid
value; if an item is the invalid value of the type only with `auto_widen` and if there is a wider type. -/
theorem fromArrowInt_ok_iff (zc widen sg : Bool) (w : Fin 4) (chunks : List (List (Option Int))) (hf : Fits sg w chunks.flatten) :
    (∃ a, fromArrowInt zc widen sg w chunks = .ok a) ↔
      (zc = true → chunks.length ≤ 1 ∧ none ∉ chunks.flatten) ∧
      (some (missing sg w) ∈ chunks.flatten → zc = false ∧ widen = true ∧ w ≠ 3) := by
  have one : (∃ a, fromArrowOne zc widen sg w chunks.flatten = .ok a) ↔ (zc = true → none ∉ chunks.flatten) ∧
      (some (missing sg w) ∈ chunks.flatten → zc = false ∧ widen = true ∧ w ≠ 3) := by
    constructor
    · rintro ⟨a, ha⟩
      obtain ⟨h1, ⟨h2, _⟩ | ⟨_, h3, h4, h5, _⟩⟩ := (fromArrowOne_eq hf a).1 ha
      · exact ⟨h1, fun h => absurd h h2⟩
      · exact ⟨h1, fun _ => ⟨h3, h4, h5⟩⟩
    · rintro ⟨h1, h2⟩
      by_cases h3 : some (missing sg w) ∈ chunks.flatten
      · obtain ⟨h4, h5, h6⟩ := h2 h3
        exact ⟨_, (fromArrowOne_eq hf _).2 ⟨h1, Or.inr ⟨h3, h4, h5, h6, rfl⟩⟩⟩
      · exact ⟨_, (fromArrowOne_eq hf _).2 ⟨h1, Or.inl ⟨h3, rfl⟩⟩⟩
  unfold fromArrowInt
  by_cases hl : 1 < chunks.length
  · rw [if_pos hl]
    cases zc with
    | true =>
      rw [if_pos rfl]
      constructor
      · rintro ⟨a, ha⟩; cases ha
      · rintro ⟨h, _⟩; have := (h rfl).1; omega
    | false =>
      rw [if_neg (by simp)]
      by_cases hn : none ∉ chunks.flatten
      · rw [if_pos hn]
        constructor
        · rintro ⟨a, ha⟩
          refine ⟨by simp, fun hm => ⟨rfl, ?_⟩⟩
          cases hmap : chunks.mapM (fromArrowOne false widen sg w) with
          | error e => rw [hmap] at ha; cases ha
          | ok as =>
            have hfa := mapM_ok.1 hmap
            obtain ⟨c, hc, hcm⟩ := List.mem_flatten.1 hm
            obtain ⟨i, hi, rfl⟩ := List.getElem_of_mem hc
            have hi' : i < as.length := by rw [← hfa.length_eq]; exact hi
            have := (List.forall₂_iff_get.1 hfa).2 i hi hi'
            simp only [List.get_eq_getElem] at this
            obtain ⟨_, ⟨h2, _⟩ | ⟨_, _, h4, h5, _⟩⟩ := (fromArrowOne_eq (fits_chunk hf hc) _).1 this
            · exact absurd hcm h2
            · exact ⟨h4, h5⟩
        · rintro ⟨_, h2⟩
          obtain ⟨as, has⟩ := mapM_total (f := fromArrowOne false widen sg w) (l := chunks) fun c hc => by
            by_cases h3 : some (missing sg w) ∈ c
            · obtain ⟨h4, h5, h6⟩ := h2 (List.mem_flatten.2 ⟨c, hc, h3⟩)
              exact ⟨_, (fromArrowOne_eq (fits_chunk hf hc) _).2 ⟨by simp, Or.inr ⟨h3, h4, h5, h6, rfl⟩⟩⟩
            · exact ⟨_, (fromArrowOne_eq (fits_chunk hf hc) _).2 ⟨by simp, Or.inl ⟨h3, rfl⟩⟩⟩
          rw [has]; exact ⟨_, rfl⟩
      · rw [if_neg hn, one]; simp
  · rw [if_neg hl, one]
    constructor
    · rintro ⟨h1, h2⟩; exact ⟨fun h => ⟨by omega, h1 h⟩, h2⟩
    · rintro ⟨h1, h2⟩; exact ⟨fun h => (h1 h).2, h2⟩

/-- **C186** The type stays, and becomes the next wider one exactly if an item is the invalid value of the type. -/
theorem fromArrowInt_type {zc widen sg : Bool} {w : Fin 4} {chunks : List (List (Option Int))} (hf : Fits sg w chunks.flatten) {a : IntArr}
    (h : fromArrowInt zc widen sg w chunks = .ok a) :
    a.sg = sg ∧ (a.w.val = if some (missing sg w) ∈ chunks.flatten then w.val + 1 else w.val) := by
  have one : fromArrowOne zc widen sg w chunks.flatten = .ok a → a.sg = sg ∧ (a.w.val = if some (missing sg w) ∈ chunks.flatten then w.val + 1 else w.val) := by
    intro ha
    obtain ⟨_, ⟨h2, rfl⟩ | ⟨h2, _, _, _, rfl⟩⟩ := (fromArrowOne_eq hf a).1 ha
    · rw [if_neg h2]; exact ⟨rfl, rfl⟩
    · rw [if_pos h2]; exact ⟨rfl, rfl⟩
  unfold fromArrowInt at h
  split_ifs at h with h1 h2 h3
  · exact one h
  · cases zc with
    | true => exact absurd rfl h2
    | false =>
      cases hmap : chunks.mapM (fromArrowOne false widen sg w) with
      | error e => rw [hmap] at h; cases h
      | ok as =>
        rw [hmap] at h; cases h
        have hne : chunks ≠ [] := by rintro rfl; simp at h1
        obtain ⟨g1, g2, _, _, g5⟩ := hstack_spec hf h3 (mapM_ok.1 hmap) hne
        refine ⟨g1, ?_⟩
        split_ifs with hin
        · rcases g2 with g2 | ⟨hw, g2⟩
          · exact absurd g2 (g5.2 hin)
          · rw [g2]; rfl
        · by_contra hc
          exact hin (g5.1 fun e => hc (by rw [e]))
  · exact one h

/-- **C185 (partial)** `from_arrow` of integers in any number of chunks: every row shows the number of the Arrow array and nothing for null,
and every number is one of the type. Missing: arrays with nulls and with the invalid value of the type as a number; see
`fromArrowInt_nulls_exact` and the counterexample. -/
theorem fromArrowInt_rows_partial {zc widen sg : Bool} {w : Fin 4} {chunks : List (List (Option Int))} (hf : Fits sg w chunks.flatten) {a : IntArr}
    (h : fromArrowInt zc widen sg w chunks = .ok a) (hx : none ∈ chunks.flatten → some (missing sg w) ∉ chunks.flatten) :
    shown a.sg a.w a.vals = chunks.flatten := by
  have one : fromArrowOne zc widen sg w chunks.flatten = .ok a → shown a.sg a.w a.vals = chunks.flatten := by
    intro ha
    obtain ⟨_, ⟨h2, rfl⟩ | ⟨h2, _, _, hw, rfl⟩⟩ := (fromArrowOne_eq hf a).1 ha
    · exact fillNull_shown (fun v hv e => h2 (e ▸ hv)) (fun _ => rfl)
    · exact fillNull_shown (fun v hv => missing_after sg w hw v (hf v hv)) (fun hn => absurd h2 (hx hn))
  unfold fromArrowInt at h
  split_ifs at h with h1 h2 h3
  · exact one h
  · cases zc with
    | true => exact absurd rfl h2
    | false =>
      cases hmap : chunks.mapM (fromArrowOne false widen sg w) with
      | error e => rw [hmap] at h; cases h
      | ok as =>
        rw [hmap] at h; cases h
        have hne : chunks ≠ [] := by rintro rfl; simp at h1
        exact (hstack_spec hf h3 (mapM_ok.1 hmap) hne).2.2.2.1
  · exact one h

/-- **C185** What happens to the others: every null shows the invalid value of the Arrow type as an ordinary number. -/
theorem fromArrowInt_nulls_exact {zc widen sg : Bool} {w : Fin 4} {chunks : List (List (Option Int))} (hf : Fits sg w chunks.flatten) {a : IntArr}
    (h : fromArrowInt zc widen sg w chunks = .ok a) (h1 : none ∈ chunks.flatten) (h2 : some (missing sg w) ∈ chunks.flatten) :
    shown a.sg a.w a.vals = chunks.flatten.map fun r => some (r.getD (missing sg w)) := by
  have ha : fromArrowOne zc widen sg w chunks.flatten = .ok a := by
    unfold fromArrowInt at h
    split_ifs at h with g1 g2
    · exact h
    · exact h
  obtain ⟨_, ⟨h3, _⟩ | ⟨_, _, _, hw, rfl⟩⟩ := (fromArrowOne_eq hf a).1 ha
  · exact absurd h2 h3
  · unfold shown fillNull
    rw [List.map_map]
    refine List.map_congr_left fun r hr => ?_
    have : r.getD (missing sg w) ≠ missing sg (after w hw) := by
      cases r with
      | none => exact missing_after sg w hw _ (hf _ h2)
      | some v => exact missing_after sg w hw v (hf v hr)
    simp [this]

/-- **C185** violated: -128 and null as int8 are both -128 as int16. -/
theorem fromArrowInt_counterexample : ∃ (rows : List (Option Int)) (a : IntArr), Fits true 0 rows ∧ none ∈ rows ∧
    fromArrowInt false true true 0 [rows] = .ok a ∧ none ∉ shown a.sg a.w a.vals :=
  ⟨[some (-128), none], ⟨true, 1, [-128, -128]⟩, by unfold Fits; simp; decide +kernel, by simp, by decide +kernel, by decide +kernel⟩

example : Fits false 1 ([[some 3, none], [some 65535]] : List (List (Option Int))).flatten ∧ Fits true 0 ([[some (-128)], [some 5]] : List (List (Option Int))).flatten ∧
    fromArrowInt false true true 0 [[some (-128)], [some 5]] = .ok ⟨true, 1, [-128, 5]⟩ := by
  refine ⟨?_, ?_, by decide +kernel⟩ <;> (unfold Fits; simp; decide +kernel)

theorem toArrowInt_fits {a : IntArr} (h : a.WF) : Fits a.sg a.w (toArrowInt a) ∧ some (missing a.sg a.w) ∉ toArrowInt a := by
  unfold Fits toArrowInt
  constructor
  · intro v hv
    obtain ⟨x, hx, hxv⟩ := List.mem_map.1 hv
    split_ifs at hxv with he
    cases hxv
    exact h v hx
  · intro hv
    obtain ⟨x, hx, hxv⟩ := List.mem_map.1 hv
    split_ifs at hxv with he
    cases hxv
    exact he rfl

theorem toArrowInt_fill (a : IntArr) : fillNull (missing a.sg a.w) (toArrowInt a) = a.vals := by
  unfold fillNull toArrowInt
  rw [List.map_map]
  conv_rhs => rw [← List.map_id a.vals]
  refine List.map_congr_left fun v _ => ?_
  by_cases h : v = missing a.sg a.w <;> simp [h]

/-- **C184** `to_arrow` and `from_arrow` give an integer array back, of every type, with its invalid values, however the Arrow array has
been cut into chunks in between. -/
theorem int_round_trip (a : IntArr) (h : a.WF) (widen : Bool) (chunks : List (List (Option Int))) (hc : chunks.flatten = toArrowInt a) :
    fromArrowInt false widen a.sg a.w chunks = .ok a := by
  obtain ⟨hf, hm⟩ := toArrowInt_fits h
  obtain ⟨b, hb⟩ := (fromArrowInt_ok_iff false widen a.sg a.w chunks (hc ▸ hf)).2 ⟨by simp, fun hx => absurd (hc ▸ hx) hm⟩
  rw [hb]
  obtain ⟨g1, g2⟩ := fromArrowInt_type (hc ▸ hf) hb
  rw [if_neg (hc ▸ hm)] at g2
  have hs := fromArrowInt_rows_partial (hc ▸ hf) hb (fun _ => hc ▸ hm)
  have hw : b.w = a.w := Fin.ext g2
  obtain ⟨bs, bw, bv⟩ := b
  dsimp only at g1 hw hs
  subst g1; subst hw
  rw [hc] at hs
  have : bv = a.vals := by
    have h1 : fillNull (missing a.sg a.w) (shown a.sg a.w bv) = bv := toArrowInt_fill ⟨a.sg, a.w, bv⟩
    rw [← h1, hs, toArrowInt_fill]
  rw [this]

example : (⟨false, 0, [0, 254, 255]⟩ : IntArr).WF ∧ toArrowInt ⟨false, 0, [0, 254, 255]⟩ = [some 0, some 254, none] := by
  refine ⟨?_, by decide +kernel⟩
  unfold IntArr.WF; simp; decide +kernel

/-- **C184** Floating point numbers, with NaN, and booleans come back, too. -/
theorem plain_round_trip {F : Type} (nan : F) (vals : List F) (chunks : List (List (Option F))) (hc : chunks.flatten = toArrowPlain vals)
    (bs : List Bool) (bchunks : List (List (Option Bool))) (hb : bchunks.flatten = toArrowPlain bs) :
    fromArrowFloat nan false chunks = .ok vals ∧ fromArrowBool false bchunks = .ok bs := by
  have key : ∀ {A : Type} (x : A) (l : List A), fillNull x (toArrowPlain l) = l := by
    intro A x l; unfold fillNull toArrowPlain; rw [List.map_map]; exact List.map_id'' (fun _ => rfl) l
  unfold fromArrowFloat fromArrowBool
  rw [hc, hb, key, key]
  refine ⟨rfl, ?_⟩
  rw [if_neg (by simp), if_neg]
  unfold toArrowPlain; simp

/-- **C185** `from_arrow` of floating point numbers: every number is kept, null is NaN; booleans are kept, arrays with nulls are refused. -/
theorem fromArrow_plain_rows {F : Type} (nan : F) (zc : Bool) (chunks : List (List (Option F))) (bchunks : List (List (Option Bool))) :
    (∀ r, fromArrowFloat nan zc chunks = .ok r → r.length = chunks.flatten.length ∧
      ∀ (i : Nat) (x : Option F), chunks.flatten[i]? = some x → r[i]? = some (x.getD nan)) ∧
    ((∃ r, fromArrowFloat nan zc chunks = .ok r) ↔ (zc = true → chunks.length ≤ 1 ∧ ∀ x ∈ chunks.flatten, x ≠ none)) ∧
    (∀ r, fromArrowBool zc bchunks = .ok r ↔ zc = false ∧ r.map some = bchunks.flatten) := by
  refine ⟨fun r h => ?_, ?_, fun r => ?_⟩
  · unfold fromArrowFloat at h
    split_ifs at h
    cases h
    refine ⟨by unfold fillNull; rw [List.length_map], fun i x hx => ?_⟩
    unfold fillNull
    rw [List.getElem?_map, hx]; rfl
  · unfold fromArrowFloat
    constructor
    · rintro ⟨r, h⟩ rfl
      split_ifs at h with hc
      simp only [Bool.true_and, Bool.or_eq_true, not_or, decide_eq_true_eq] at hc
      refine ⟨by omega, fun x hx e => hc.2 ?_⟩
      rw [List.any_eq_true]
      exact ⟨x, hx, by rw [e]; rfl⟩
    · intro h
      rw [if_neg]
      · exact ⟨_, rfl⟩
      · rw [Bool.and_eq_true, Bool.or_eq_true]
        rintro ⟨rfl, hc⟩
        obtain ⟨h1, h2⟩ := h rfl
        rcases hc with hc | hc
        · rw [decide_eq_true_eq] at hc; omega
        · obtain ⟨x, hx, hxn⟩ := List.any_eq_true.1 hc
          exact h2 x hx (Option.isNone_iff_eq_none.1 hxn)
  · unfold fromArrowBool
    cases zc with
    | true => rw [if_pos rfl]; simp
    | false =>
      rw [if_neg (by simp)]
      by_cases hn : none ∈ bchunks.flatten
      · rw [if_pos hn]
        constructor
        · intro h; cases h
        · rintro ⟨_, h⟩; rw [← h] at hn; simp at hn
      · rw [if_neg hn]
        have hfill : (fillNull false bchunks.flatten).map some = bchunks.flatten := by
          unfold fillNull
          rw [List.map_map]
          conv_rhs => rw [← List.map_id bchunks.flatten]
          refine List.map_congr_left fun x hx => ?_
          cases x with
          | none => exact absurd hx hn
          | some b => rfl
        constructor
        · intro h; cases h; exact ⟨rfl, hfill⟩
        · rintro ⟨_, h⟩
          rw [← hfill] at h
          rw [List.map_injective_iff.2 (Option.some_injective _) h]

end Verif.Arrow
