import Verif.Merge2.Spec
import Verif.Items.Dict
import Verif.Merge.Columns

/-!
# C10: column names of a merge
-/
namespace Verif.Merge2
open Verif.Merge Verif.Items

theorem nodup_eraseDups_beq {α : Type} [BEq α] [LawfulBEq α] (l : List α) : l.eraseDups.Nodup := by
  generalize hn : l.length = n
  induction n using Nat.strongRecOn generalizing l with
  | ind n ih =>
    cases l with
    | nil => simp
    | cons a l =>
      rw [List.eraseDups_cons, List.nodup_cons]
      refine ⟨by simp [List.mem_eraseDups], ?_⟩
      refine ih _ ?_ _ rfl
      have := List.length_filter_le (fun b => !b == a) l
      simp only [List.length_cons] at hn
      omega

section
variable {ord : List Name → List Name} (hord : ∀ l, (ord l).Perm l)
include hord

theorem mem_setInter (a b : List Name) (c : Name) : c ∈ setInter ord a b ↔ c ∈ a ∧ c ∈ b := by
  simp [setInter, (hord _).mem_iff, List.mem_eraseDups]

theorem nodup_setInter (a b : List Name) : (setInter ord a b).Nodup :=
  ((hord _).nodup_iff).mpr ((nodup_eraseDups_beq a).filter _)

theorem mem_onlyCols (leftOn rightOn cols : List Name) (c : Name) :
    c ∈ onlyCols (setInter ord leftOn rightOn) cols ↔ c ∈ cols ∧ ¬ common leftOn rightOn c := by
  have hm := mem_setInter hord leftOn rightOn
  unfold onlyCols common
  split
  · rename_i h
    rw [List.isEmpty_iff] at h
    have : ¬ (c ∈ leftOn ∧ c ∈ rightOn) := by rw [← hm, h]; simp
    simp [this]
  · simp only [List.mem_filter, decide_eq_true_eq, hm]

theorem overlap_iff (leftOn rightOn colsL colsR : List Name) (c : Name) :
    c ∈ setInter ord (onlyCols (setInter ord leftOn rightOn) colsL)
        (onlyCols (setInter ord leftOn rightOn) colsR) ↔ clashes leftOn rightOn colsL colsR c := by
  rw [mem_setInter hord, mem_onlyCols hord, mem_onlyCols hord]
  unfold clashes; tauto

end

theorem remapCols_ok {on only overlap : List Name} {suffix : Option Name} {new : List Name}
    (h : remapCols on only overlap suffix = .ok new) :
    new = only.map (fun c => if c ∈ overlap then c ++ suffix.getD [] else c) ∧
    (suffix.getD [] ≠ [] → ∀ c ∈ overlap, c ++ suffix.getD [] ∉ on ∧ c ++ suffix.getD [] ∉ only) := by
  unfold remapCols at h
  dsimp only at h
  split at h
  · rename_i hs
    cases h
    rw [hs]
    simp
  · split at h
    · cases h
    · split at h
      · cases h
      · rename_i hs h1 h2
        cases h
        simp at h1 h2
        exact ⟨rfl, fun _ c hc => ⟨h1 c hc, h2 c hc⟩⟩

/-- What the computed mapping says. -/
structure NamesOK (leftOn rightOn colsL colsR : List Name) (suffixes : Suffixes) (m : Mapping) : Prop where
  inter : ∀ c, c ∈ m.inter ↔ common leftOn rightOn c
  interNodup : m.inter.Nodup
  oldL : ∀ c, c ∈ m.oldL ↔ c ∈ colsL ∧ ¬ common leftOn rightOn c
  oldR : ∀ c, c ∈ m.oldR ↔ c ∈ colsR ∧ ¬ common leftOn rightOn c
  newL : m.newL = m.oldL.map (outName leftOn rightOn colsL colsR (sufL suffixes))
  newR : m.newR = m.oldR.map (outName leftOn rightOn colsL colsR (sufR suffixes))
  injL : ∀ c ∈ m.oldL, ∀ c' ∈ m.oldL, outName leftOn rightOn colsL colsR (sufL suffixes) c =
    outName leftOn rightOn colsL colsR (sufL suffixes) c' → c = c'
  injR : ∀ c ∈ m.oldR, ∀ c' ∈ m.oldR, outName leftOn rightOn colsL colsR (sufR suffixes) c =
    outName leftOn rightOn colsL colsR (sufR suffixes) c' → c = c'
  disj : ∀ c ∈ m.oldL, ∀ c' ∈ m.oldR, outName leftOn rightOn colsL colsR (sufL suffixes) c ≠
    outName leftOn rightOn colsL colsR (sufR suffixes) c'
  keyL : ∀ c ∈ m.oldL, ¬ common leftOn rightOn (outName leftOn rightOn colsL colsR (sufL suffixes) c)
  keyR : ∀ c ∈ m.oldR, ¬ common leftOn rightOn (outName leftOn rightOn colsL colsR (sufR suffixes) c)

/-- **C10** If the names can be resolved, every requested column keeps its name or, exactly when
it clashes, gets the suffix of its side; and no two output columns share a name. -/
theorem merge_names_correct {ord : List Name → List Name} (hord : ∀ l, (ord l).Perm l)
    {leftOn rightOn colsL colsR : List Name} {suffixes : Suffixes} {m : Mapping}
    (h : colnameMapping ord leftOn rightOn suffixes colsL colsR = .ok m) :
    NamesOK leftOn rightOn colsL colsR suffixes m := by
  have hov := overlap_iff hord leftOn rightOn colsL colsR
  have hL := mem_onlyCols hord leftOn rightOn colsL
  have hR := mem_onlyCols hord leftOn rightOn colsR
  have hi := mem_setInter hord leftOn rightOn
  have hin := nodup_setInter hord leftOn rightOn
  unfold colnameMapping at h
  dsimp only at h
  generalize setInter ord leftOn rightOn = inter at *
  generalize onlyCols inter colsL = onlyL at *
  generalize onlyCols inter colsR = onlyR at *
  generalize setInter ord onlyL onlyR = ov at *
  split at h
  · cases h
  split at h
  · cases h
  split at h
  · cases h
  rename_i newL hnL
  split at h
  · cases h
  rename_i newR hnR
  split at h
  · cases h
  rename_i hdis
  cases h
  obtain ⟨eL, nL⟩ := remapCols_ok hnL
  obtain ⟨eR, nR⟩ := remapCols_ok hnR
  have hfun : ∀ s : Option Name, (fun c => if c ∈ ov then c ++ s.getD [] else c) =
      outName leftOn rightOn colsL colsR s := by
    intro s; funext c; unfold outName
    by_cases hc : c ∈ ov
    · rw [if_pos hc, if_pos ((hov c).mp hc)]
    · rw [if_neg hc, if_neg (fun h => hc ((hov c).mpr h))]
  rw [hfun] at eL eR
  have inj : ∀ (s : Option Name) (on only : List Name)
      (_ : s.getD [] ≠ [] → ∀ c ∈ ov, c ++ s.getD [] ∉ on ∧ c ++ s.getD [] ∉ only),
      ∀ c ∈ only, ∀ c' ∈ only, outName leftOn rightOn colsL colsR s c =
        outName leftOn rightOn colsL colsR s c' → c = c' := by
    intro s on only n c hc c' hc'
    rw [← hfun]
    dsimp only
    by_cases hs : s.getD [] = []
    · simp [hs]
    · by_cases h1 : c ∈ ov <;> by_cases h2 : c' ∈ ov
      · rw [if_pos h1, if_pos h2]; exact fun h => List.append_cancel_right h
      · rw [if_pos h1, if_neg h2]; intro h; exact absurd (h ▸ hc') (n hs c h1).2
      · rw [if_neg h1, if_pos h2]; intro h; exact absurd (h ▸ hc) (n hs c' h2).2
      · rw [if_neg h1, if_neg h2]; exact id
  have key : ∀ (s : Option Name) (on only : List Name)
      (_ : ∀ c, common leftOn rightOn c → c ∈ on)
      (_ : ∀ c ∈ only, ¬ common leftOn rightOn c)
      (_ : s.getD [] ≠ [] → ∀ c ∈ ov, c ++ s.getD [] ∉ on ∧ c ++ s.getD [] ∉ only),
      ∀ c ∈ only, ¬ common leftOn rightOn (outName leftOn rightOn colsL colsR s c) := by
    intro s on only hon hnc n c hc
    rw [← hfun]
    dsimp only
    split
    · rename_i h1
      by_cases hs : s.getD [] = []
      · rw [hs, List.append_nil]; exact hnc c hc
      · exact fun h => (n hs c h1).1 (hon _ h)
    · exact hnc c hc
  refine ⟨fun c => hi c, hin, hL, hR, eL, eR, inj _ leftOn _ nL, inj _ rightOn _ nR, ?_,
    key _ leftOn _ (fun c h => h.1) (fun c hc => ((hL c).mp hc).2) nL,
    key _ rightOn _ (fun c h => h.2) (fun c hc => ((hR c).mp hc).2) nR⟩
  intro c hc c' hc' e
  apply hdis
  rw [List.any_eq_true]
  refine ⟨outName leftOn rightOn colsL colsR (sufL suffixes) c, ?_, ?_⟩
  · rw [eL]; exact List.mem_map_of_mem hc
  · rw [decide_eq_true_eq, e, eR]; exact List.mem_map_of_mem hc'

/-- **C10** Without clashing columns the names are always resolved, and nothing is renamed. -/
theorem merge_names_no_clash {ord : List Name → List Name} (hord : ∀ l, (ord l).Perm l)
    (leftOn rightOn colsL colsR : List Name) (suffixes : Suffixes)
    (h : ∀ c, ¬ clashes leftOn rightOn colsL colsR c) :
    ∃ m, colnameMapping ord leftOn rightOn suffixes colsL colsR = .ok m ∧
      m.newL = m.oldL ∧ m.newR = m.oldR := by
  have hov := overlap_iff hord leftOn rightOn colsL colsR
  have hmi := mem_setInter hord (onlyCols (setInter ord leftOn rightOn) colsL)
    (onlyCols (setInter ord leftOn rightOn) colsR)
  have he : setInter ord (onlyCols (setInter ord leftOn rightOn) colsL)
      (onlyCols (setInter ord leftOn rightOn) colsR) = [] := by
    rw [List.eq_nil_iff_forall_not_mem]
    exact fun c hc => h c ((hov c).mp hc)
  rw [he] at hmi
  have hr : ∀ on only s, remapCols on only [] s = .ok only := by
    intro on only s; unfold remapCols; dsimp only; split <;> simp
  refine ⟨⟨onlyCols (setInter ord leftOn rightOn) colsL, onlyCols (setInter ord leftOn rightOn) colsL,
    onlyCols (setInter ord leftOn rightOn) colsR, onlyCols (setInter ord leftOn rightOn) colsR,
    setInter ord leftOn rightOn⟩, ?_, rfl, rfl⟩
  unfold colnameMapping
  simp only [he, hr, List.isEmpty_nil, Bool.not_true, Bool.false_and, Bool.false_eq_true, if_false]
  rw [if_neg]
  intro hc
  rw [List.any_eq_true] at hc
  obtain ⟨c, h1, h2⟩ := hc
  exact absurd ((hmi c).mpr ⟨h1, of_decide_eq_true h2⟩) (by simp)

/-- **C10** Clashing columns without two different suffixes are refused. -/
theorem merge_names_refused {ord : List Name → List Name} (hord : ∀ l, (ord l).Perm l)
    (leftOn rightOn colsL colsR : List Name) (suffixes : Suffixes) (c : Name)
    (h : clashes leftOn rightOn colsL colsR c) (hs : sufL suffixes = sufR suffixes) :
    ∃ e, colnameMapping ord leftOn rightOn suffixes colsL colsR = .error e := by
  have hc := (overlap_iff hord leftOn rightOn colsL colsR c).mpr h
  have he : (setInter ord (onlyCols (setInter ord leftOn rightOn) colsL)
      (onlyCols (setInter ord leftOn rightOn) colsR)).isEmpty = false := by
    rw [List.isEmpty_eq_false_iff]; intro e; rw [e] at hc; simp at hc
  unfold colnameMapping
  dsimp only
  rw [he]
  by_cases hn : suffixes.isNone
  · rw [if_pos (by simp [hn])]; exact ⟨_, rfl⟩
  · rw [if_neg (by simp [hn]), if_pos (by simp [hs])]; exact ⟨_, rfl⟩

end Verif.Merge2
