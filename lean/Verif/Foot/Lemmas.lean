import Verif.Items.Dict
import Verif.Foot.Model

/-! # Lemmas on footers -/
namespace Verif.Foot
open Verif.Items (Dict)
open Spec (Op)
variable {V : Type}

/-- the value a column has under a label -/
def foot (h : Heap V) (d : Ds) (c l : String) : Option V :=
  (colFooter h d c).bind fun cd => cd.get l

/-- attribute objects exist and columns of one Dataset do not share them -/
structure WF (h : Heap V) (d : Ds) : Prop where
  nodup : d.cols.keys.Nodup
  bound : ∀ c p, attrOf d c = some p → p < h.length
  inj : ∀ c c' p, attrOf d c = some p → attrOf d c' = some p → c = c'

/-- nothing is changed outside the attribute objects of the Dataset -/
structure Frame (s s' : Heap V × Ds) : Prop where
  len : s.1.length ≤ s'.1.length
  keep : ∀ q, q < s.1.length → (∀ c, attrOf s.2 c ≠ some q) → s'.1[q]? = s.1[q]?
  addr : ∀ c p, attrOf s'.2 c = some p → (∃ c', attrOf s.2 c' = some p) ∨ s.1.length ≤ p

theorem Frame.refl (s : Heap V × Ds) : Frame s s :=
  ⟨Nat.le_refl _, fun _ _ _ => rfl, fun c _ h => .inl ⟨c, h⟩⟩

theorem Frame.trans {s s' s'' : Heap V × Ds} (a : Frame s s') (b : Frame s' s'') : Frame s s'' := by
  refine ⟨Nat.le_trans a.len b.len, fun q hq hn => ?_, fun c p h => ?_⟩
  · rw [b.keep q (Nat.lt_of_lt_of_le hq a.len), a.keep q hq hn]
    intro c hc
    rcases a.addr c q hc with ⟨c', h'⟩ | h'
    · exact hn c' h'
    · omega
  · rcases b.addr c p h with ⟨c', h'⟩ | h'
    · exact a.addr c' p h'
    · exact .inr (Nat.le_trans a.len h')

theorem attrOf_mem {d : Ds} {c : String} {p : Nat} (h : attrOf d c = some p) : c ∈ d.cols.keys := by
  by_contra hc
  unfold attrOf at h
  rw [(Dict.get_eq_none_iff d.cols c).mpr hc] at h
  simp at h

theorem footerOf_set (h : Heap V) {p : Nat} (hp : p < h.length) (cd : Dict String V) (q : Nat) :
    footerOf (h.set p (some cd)) q = if q = p then some cd else footerOf h q := by
  unfold footerOf
  rw [List.getElem?_set]
  by_cases hq : p = q
  · subst hq; simp [hp]
  · rw [if_neg hq, if_neg (Ne.symm hq)]

theorem footerOf_append (h : Heap V) (x : Option (Dict String V)) (q : Nat) :
    footerOf (h ++ [x]) q = if q = h.length then x else footerOf h q := by
  unfold footerOf
  by_cases hq : q = h.length
  · subst hq; simp
  · rw [if_neg hq]
    rcases Nat.lt_or_ge q h.length with h1 | h1
    · rw [List.getElem?_append_left h1]
    · rw [List.getElem?_eq_none (by simp; omega), List.getElem?_eq_none h1]

theorem attrOf_set (d : Ds) (c c' : String) (a : Option Nat) :
    attrOf { d with cols := d.cols.set c a } c' = if c' = c then a else attrOf d c' := by
  unfold attrOf
  simp only [Dict.get_set]
  split <;> simp

/-- all that `putFooter` does -/
theorem putFooter_spec {h : Heap V} {d : Ds} (w : WF h d) {c : String} (hc : c ∈ d.cols.keys)
    (cd : Dict String V) :
    WF (putFooter h d c cd).1 (putFooter h d c cd).2
    ∧ Frame (h, d) (putFooter h d c cd)
    ∧ (putFooter h d c cd).2.cols.keys = d.cols.keys
    ∧ (putFooter h d c cd).2.footers = d.footers
    ∧ ∀ c', colFooter (putFooter h d c cd).1 (putFooter h d c cd).2 c'
        = if c' = c then some cd else colFooter h d c' := by
  unfold putFooter
  cases ha : attrOf d c with
  | some p =>
    have hp := w.bound c p ha
    refine ⟨⟨w.nodup, fun c' p' h' => by simpa using w.bound c' p' h', w.inj⟩,
      ⟨by simp, fun q _ hn => ?_, fun c' p' h' => .inl ⟨c', h'⟩⟩, rfl, rfl, fun c' => ?_⟩
    · have : p ≠ q := fun e => hn c (e ▸ ha)
      simp [List.getElem?_set, this]
    · unfold colFooter
      cases hb : attrOf d c' with
      | none =>
        have : c' ≠ c := by rintro rfl; rw [ha] at hb; cases hb
        simp [this]
      | some q =>
        simp only [Option.bind_some]
        rw [footerOf_set h hp]
        by_cases hcc : c' = c
        · subst hcc
          have : q = p := Option.some.inj (hb.symm.trans ha)
          simp [this]
        · have : q ≠ p := by
            rintro rfl
            exact hcc (w.inj _ _ _ hb ha)
          simp [this, hcc]
  | none =>
    refine ⟨⟨?_, fun c' p' h' => ?_, fun c1 c2 p' h1 h2 => ?_⟩,
      ⟨by simp, fun q hq _ => ?_, fun c' p' h' => ?_⟩, ?_, rfl, fun c' => ?_⟩
    · exact Dict.nodup_set w.nodup _ _
    · rw [attrOf_set] at h'
      split at h'
      · have := Option.some.inj h'; simp; omega
      · have := w.bound c' p' h'; simp; omega
    · rw [attrOf_set] at h1 h2
      split at h1 <;> split at h2
      · simp_all
      · have := Option.some.inj h1; have := w.bound c2 p' h2; omega
      · have := Option.some.inj h2; have := w.bound c1 p' h1; omega
      · exact w.inj _ _ _ h1 h2
    · simp only
      rw [List.getElem?_append_left (by simpa using hq)]
    · rw [attrOf_set] at h'
      split at h'
      · right; have := Option.some.inj h'; simp; omega
      · exact .inl ⟨c', h'⟩
    · exact Dict.keys_set_of_mem hc _
    · unfold colFooter
      rw [attrOf_set]
      by_cases hcc : c' = c
      · simp [hcc, footerOf_append]
      · rw [if_neg hcc, if_neg hcc]
        cases hb : attrOf d c' with
        | none => rfl
        | some q =>
          simp only [Option.bind_some]
          rw [footerOf_append, if_neg]
          have := w.bound c' q hb
          omega

/-- all that a loop turn of `footer_set_values` does -/
theorem setOne_spec {h : Heap V} {d : Ds} (w : WF h d) (label : String) (e : String × V)
    (hc : e.1 ∈ d.cols.keys) :
    WF (setOne label (h, d) e).1 (setOne label (h, d) e).2
    ∧ Frame (h, d) (setOne label (h, d) e)
    ∧ (setOne label (h, d) e).2.cols.keys = d.cols.keys
    ∧ (setOne label (h, d) e).2.footers = d.footers
    ∧ ∀ c l, foot (setOne label (h, d) e).1 (setOne label (h, d) e).2 c l
        = if c = e.1 ∧ l = label then some e.2 else foot h d c l := by
  unfold setOne
  cases hf : colFooter h d e.1 with
  | none =>
    obtain ⟨a, b, k, f, g⟩ := putFooter_spec w hc [(label, e.2)]
    simp only [hf]
    refine ⟨a, b, k, f, fun c l => ?_⟩
    unfold foot
    rw [g]
    by_cases hce : c = e.1
    · subst hce
      by_cases hl : l = label
      · simp [hl, Dict.get_cons]
      · simp [hl, hf, Dict.get_cons, Ne.symm hl]
    · simp [hce]
  | some cd =>
    obtain ⟨a, b, k, f, g⟩ := putFooter_spec w hc (cd.set label e.2)
    simp only [hf]
    refine ⟨a, b, k, f, fun c l => ?_⟩
    unfold foot
    rw [g]
    by_cases hce : c = e.1
    · subst hce
      simp [hf, Dict.get_set]
    · simp [hce]

theorem given_cons (e : String × V) (es : List (String × V)) (c : String) :
    Spec.given (e :: es) c = if e.1 = c then some e.2 else Spec.given es c := by
  unfold Spec.given
  rw [List.find?_cons]
  by_cases h : e.1 = c <;> simp [h]

theorem given_none {es : List (String × V)} {c : String} (h : c ∉ es.map Prod.fst) :
    Spec.given es c = none := by
  unfold Spec.given
  rw [List.find?_eq_none.mpr]
  · rfl
  · intro e he hc
    exact h (List.mem_map.mpr ⟨e, he, by simpa using hc⟩)

theorem setAll_spec (label : String) (es : List (String × V)) (hn : (es.map Prod.fst).Nodup) :
    ∀ {h : Heap V} {d : Ds}, WF h d → (∀ e ∈ es, e.1 ∈ d.cols.keys) →
    WF (es.foldl (setOne label) (h, d)).1 (es.foldl (setOne label) (h, d)).2
    ∧ Frame (h, d) (es.foldl (setOne label) (h, d))
    ∧ (es.foldl (setOne label) (h, d)).2.cols.keys = d.cols.keys
    ∧ (es.foldl (setOne label) (h, d)).2.footers = d.footers
    ∧ ∀ c l, foot (es.foldl (setOne label) (h, d)).1 (es.foldl (setOne label) (h, d)).2 c l
        = if l = label then (Spec.given es c).or (foot h d c l) else foot h d c l := by
  induction es with
  | nil =>
    intro h d w _
    exact ⟨w, Frame.refl _, rfl, rfl, fun c l => by simp [Spec.given]⟩
  | cons e es ih =>
    intro h d w hc
    rw [List.map_cons, List.nodup_cons] at hn
    obtain ⟨a, b, k, f, g⟩ := setOne_spec w label e (hc e (by simp))
    obtain ⟨a', b', k', f', g'⟩ := ih hn.2 a
      (fun x hx => by rw [k]; exact hc x (List.mem_cons_of_mem _ hx))
    rw [List.foldl_cons]
    refine ⟨a', b.trans b', k'.trans k, f'.trans f, fun c l => ?_⟩
    rw [g', g, given_cons]
    by_cases hl : l = label
    · simp only [hl, and_true, if_true]
      by_cases hce : c = e.1
      · subst hce; simp [given_none hn.1]
      · simp [hce, Ne.symm hce]
    · simp [hl]

theorem get_foldl_del (ls : List String) (cd : Dict String V) (l : String) :
    (ls.foldl Dict.del cd).get l = if l ∈ ls then none else cd.get l := by
  induction ls generalizing cd with
  | nil => simp
  | cons x ls ih =>
    rw [List.foldl_cons, ih, Dict.get_del]
    by_cases h1 : l ∈ ls <;> by_cases h2 : l = x <;> simp [h1, h2]

/-- all that the removal from one column does -/
theorem popAll_spec {h : Heap V} {d : Ds} (w : WF h d) (ls : List String) (c : String) :
    WF (popAll ls h d c) d ∧ Frame (h, d) (popAll ls h d c, d)
    ∧ ∀ c' l, foot (popAll ls h d c) d c' l
        = if c' = c ∧ l ∈ ls then none else foot h d c' l := by
  unfold popAll
  cases ha : attrOf d c with
  | none =>
    refine ⟨w, Frame.refl _, fun c' l => ?_⟩
    by_cases hcc : c' = c
    · subst hcc; simp [foot, colFooter, ha]
    · simp [hcc]
  | some p =>
    cases hf : footerOf h p with
    | none =>
      simp only [hf]
      refine ⟨w, Frame.refl _, fun c' l => ?_⟩
      by_cases hcc : c' = c
      · subst hcc; simp [foot, colFooter, ha, hf]
      · simp [hcc]
    | some cd =>
      have hk := attrOf_mem ha
      obtain ⟨a, b, -, -, g⟩ := putFooter_spec w hk (ls.foldl Dict.del cd)
      simp only [putFooter, ha] at a b g
      simp only [hf]
      refine ⟨a, b, fun c' l => ?_⟩
      unfold foot
      rw [g c']
      by_cases hcc : c' = c
      · subst hcc
        simp [colFooter, ha, hf, get_foldl_del]
      · simp [hcc]

theorem popCols_spec (ls : List String) (d : Ds) (cs : List String) :
    ∀ {h : Heap V}, WF h d →
    WF (cs.foldl (fun h c => popAll ls h d c) h) d
    ∧ Frame (h, d) (cs.foldl (fun h c => popAll ls h d c) h, d)
    ∧ ∀ c l, foot (cs.foldl (fun h c => popAll ls h d c) h) d c l
        = if l ∈ ls ∧ c ∈ cs then none else foot h d c l := by
  induction cs with
  | nil => intro h w; exact ⟨w, Frame.refl _, fun c l => by simp⟩
  | cons x cs ih =>
    intro h w
    obtain ⟨a, b, g⟩ := popAll_spec w ls x
    obtain ⟨a', b', g'⟩ := ih a
    rw [List.foldl_cons]
    refine ⟨a', b.trans b', fun c l => ?_⟩
    rw [g', g]
    by_cases h1 : l ∈ ls <;> by_cases h2 : c ∈ cs <;> by_cases h3 : c = x <;> simp [h1, h2, h3]

theorem foot_none {h : Heap V} {d : Ds} {c : String} (hc : c ∉ d.cols.keys) (l : String) :
    foot h d c l = none := by
  unfold foot colFooter
  cases ha : attrOf d c with
  | none => rfl
  | some p => exact absurd (attrOf_mem ha) hc

theorem delLabels_spec (ls : List String) (hn : ls.Nodup) :
    ∀ {fs : List String}, fs.Nodup → (∀ l ∈ ls, l ∈ fs) →
    delLabels fs ls = (fs.filter fun l => l ∉ ls, true) := by
  induction ls with
  | nil => intro fs _ _; simp [delLabels]
  | cons x ls ih =>
    intro fs hf hm
    rw [List.nodup_cons] at hn
    unfold delLabels
    rw [if_pos (hm x (by simp)), ih hn.2 (hf.erase x)]
    · congr 1
      rw [hf.erase_eq_filter, List.filter_filter]
      apply List.filter_congr
      intro l _
      by_cases h1 : l ∈ ls <;> by_cases h2 : l = x <;> simp [h1, h2]
    · intro l hl
      rw [hf.mem_erase_iff]
      exact ⟨fun e => hn.1 (e ▸ hl), hm l (List.mem_cons_of_mem _ hl)⟩

theorem known_iff (d : Ds) (cs : List String) : known d cs = true ↔ ∀ c ∈ cs, c ∈ d.cols.keys := by
  unfold known
  rw [List.all_eq_true]
  exact forall₂_congr fun c _ => Dict.has_iff d.cols c

end Verif.Foot
