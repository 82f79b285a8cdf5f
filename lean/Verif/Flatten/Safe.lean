import Verif.Flatten.Spec
import Mathlib.Data.List.Perm.Basic
import Mathlib.Data.List.Nodup
import Mathlib.Tactic.Linarith
/-! # Flattening a folder of .sds files: nothing is lost -/
namespace Verif.Flatten
open Verif.Items (Name)
open Verif.Sds (endsSds sdsExt)

variable {C : Type}

/-! ## Names -/

theorem endsSds_iff (n : Name) : endsSds n = true ↔ ∃ y x : Name, n = y ++ x ∧ x.map Char.toLower = ".sds".toList := by
  unfold endsSds sdsExt
  rw [List.isSuffixOf_iff_suffix]
  constructor
  · rintro ⟨t, ht⟩
    have hl := congrArg List.length ht
    simp only [List.length_append, List.length_map] at hl
    refine ⟨n.take t.length, n.drop t.length, (List.take_append_drop _ _).symm, ?_⟩
    rw [List.map_drop, ← ht, List.drop_left]
  · rintro ⟨y, x, rfl, hx⟩
    rw [List.map_append, hx]
    exact List.suffix_append _ _

theorem bare_iff (n b : Name) : Bare n b ↔ b = stem n := by
  unfold Bare stem
  by_cases h : endsSds n = true
  · rw [if_pos h]
    obtain ⟨y, x, hn, hx⟩ := (endsSds_iff n).mp h
    have hlen : ∀ z : Name, z.map Char.toLower = ".sds".toList → z.length = 4 := by
      intro z hz
      have := congrArg List.length hz
      simpa using this
    have htake : n.take (n.length - 4) = y := by
      rw [hn, List.length_append, hlen x hx, Nat.add_sub_cancel, List.take_left]
    rw [htake]
    constructor
    · rintro (⟨z, hz, hzl⟩ | ⟨_, hno⟩)
      · have h2 := hz.symm.trans hn
        exact (List.append_inj' h2 ((hlen z hzl).trans (hlen x hx).symm)).1
      · exact absurd hx (hno y x hn)
    · rintro rfl
      exact Or.inl ⟨x, hn, hx⟩
  · rw [if_neg h]
    constructor
    · rintro (⟨z, hz, hzl⟩ | ⟨rfl, _⟩)
      · exact absurd ((endsSds_iff n).mpr ⟨b, z, hz, hzl⟩) h
      · rfl
    · rintro rfl
      exact Or.inr ⟨rfl, fun y x hn hx => h ((endsSds_iff b).mpr ⟨y, x, hn, hx⟩)⟩

/-- Where the model puts a file. -/
def place (n f : Name) : Name := if f = rootName then stem n ++ sdsExt else stem n ++ '!' :: f

theorem place_iff (n f t : Name) : Place n f t ↔ t = place n f := by
  unfold Place place
  constructor
  · rintro ⟨b, hb, h⟩
    rw [bare_iff] at hb
    subst hb
    rcases h with ⟨hf, ht⟩ | ⟨hf, ht⟩
    · rw [if_pos (show f = rootName from hf)]; exact ht
    · rw [if_neg (show ¬ f = rootName from hf)]; exact ht
  · intro h
    refine ⟨stem n, (bare_iff n _).mpr rfl, ?_⟩
    by_cases hf : f = rootName
    · rw [if_pos hf] at h; exact Or.inl ⟨hf, h⟩
    · rw [if_neg hf] at h; exact Or.inr ⟨hf, h⟩

theorem bang_ne_temp (s f : Name) : s ++ '!' :: f ≠ tempName := by
  intro h
  have : '!' ∈ tempName := by rw [← h]; simp
  exact absurd this (by decide)

theorem bang_ne_ext (s f : Name) : s ++ '!' :: f ≠ s ++ sdsExt := by
  intro h
  have := List.append_cancel_left h
  exact absurd (List.cons.inj this).1 (by decide)

/-! ## Operations -/

theorem runOps_append (d : Disk C) (a b : List Op) :
    runOps d (a ++ b) = match runOps d a with
      | (ds, none) => (ds, none)
      | (ds, some d') => (ds ++ (runOps d' b).1, (runOps d' b).2) := by
  induction a generalizing d with
  | nil => simp [runOps]
  | cons op a ih =>
    simp only [List.cons_append, runOps]
    cases h : runOp d op with
    | none => rfl
    | some d' =>
      simp only [ih]
      cases h2 : runOps d' a with
      | mk ds o => cases o <;> simp

/-- The folder `n` with other entries. -/
def setDir (dirs : List (Name × List (Name × Option C))) (n : Name) (es : List (Name × Option C)) : List (Name × List (Name × Option C)) :=
  dirs.map fun e => if e.1 = n then (e.1, es) else e

/-- Files as entries of a folder. -/
def ents (cs : List (Name × C)) : List (Name × Option C) := cs.map fun f => (f.1, some f.2)

theorem ents_contents (cs : List (Name × C)) : (ents cs).filterMap (·.2) = cs.map (·.2) := by
  induction cs with
  | nil => rfl
  | cons c cs ih => simp only [ents, List.map_cons, List.filterMap_cons] at ih ⊢; rw [← ih]

theorem ents_names (cs : List (Name × C)) : (ents cs).map (·.1) = cs.map (·.1) := by simp [ents]

theorem find_dir {dirs : List (Name × List (Name × Option C))} (hn : (dirs.map (·.1)).Nodup) {e : Name × List (Name × Option C)} (he : e ∈ dirs) :
    dirs.find? (fun g => g.1 = e.1) = some e := by
  induction dirs with
  | nil => cases he
  | cons g dirs ih =>
    simp only [List.map_cons, List.nodup_cons] at hn
    rcases List.mem_cons.mp he with rfl | h
    · simp
    · have : g.1 ≠ e.1 := fun h2 => hn.1 (h2 ▸ List.mem_map_of_mem h)
      rw [List.find?_cons_of_neg (by simpa using this)]
      exact ih hn.2 h

/-- The contents of the folders, taken apart at one of them. -/
theorem dirs_split {dirs : List (Name × List (Name × Option C))} (hn : (dirs.map (·.1)).Nodup) {n : Name} {es : List (Name × Option C)} (he : (n, es) ∈ dirs) :
    ∃ a b, dirs = a ++ (n, es) :: b ∧ (∀ g ∈ a, g.1 ≠ n) ∧ ∀ g ∈ b, g.1 ≠ n := by
  obtain ⟨a, b, rfl⟩ := List.append_of_mem he
  rw [List.map_append, List.map_cons] at hn
  have h2 := List.nodup_append.mp hn
  refine ⟨a, b, rfl, ?_, ?_⟩
  · intro g hg heq
    exact h2.2.2 g.1 (List.mem_map_of_mem hg) n (List.mem_cons_self) heq
  · intro g hg heq
    have : g.1 ∈ b.map (·.1) := List.mem_map_of_mem hg
    rw [heq] at this
    exact (List.nodup_cons.mp h2.2.1).1 this

theorem map_keep {a : List (Name × List (Name × Option C))} {n : Name} {es : List (Name × Option C)} (h : ∀ g ∈ a, g.1 ≠ n) :
    setDir a n es = a := by
  unfold setDir
  conv_rhs => rw [← List.map_id a]
  exact List.map_congr_left fun g hg => by rw [if_neg (h g hg)]; rfl

theorem setDir_split {a b : List (Name × List (Name × Option C))} {n : Name} {es es' : List (Name × Option C)} (ha : ∀ g ∈ a, g.1 ≠ n)
    (hb : ∀ g ∈ b, g.1 ≠ n) : setDir (a ++ (n, es) :: b) n es' = a ++ (n, es') :: b := by
  have h1 := map_keep (es := es') ha
  have h2 := map_keep (es := es') hb
  unfold setDir at *
  rw [List.map_append, List.map_cons, h1, h2]
  simp

theorem putFile_new {fs : List (Name × C)} {n : Name} (c : C) (h : n ∉ fs.map (·.1)) : putFile fs n c = fs ++ [(n, c)] := by
  unfold putFile
  congr 1
  apply List.filter_eq_self.mpr
  intro e he
  have : e.1 ≠ n := fun hh => h (hh ▸ List.mem_map_of_mem he)
  simpa using this

/-- A disk with one folder looked at. -/
def at' (fs : List (Name × C)) (a b : List (Name × List (Name × Option C))) (n : Name) (cs : List (Name × C)) : Disk C :=
  ⟨fs, a ++ (n, ents cs) :: b⟩

theorem at_dirs_names (a b : List (Name × List (Name × Option C))) (n : Name) (es : List (Name × Option C)) :
    (a ++ (n, es) :: b).map (·.1) = a.map (·.1) ++ n :: b.map (·.1) := by simp

/-- The entries but those of these names. -/
def without (cs : List (Name × C)) (ks : List Name) : List (Name × C) := cs.filter fun f => decide (f.1 ∉ ks)

theorem without_nil (cs : List (Name × C)) : without cs [] = cs := by simp [without]

theorem without_without (cs : List (Name × C)) (ks ls : List Name) : without (without cs ks) ls = without cs (ks ++ ls) := by
  unfold without
  rw [List.filter_filter]
  apply List.filter_congr
  intro x _
  by_cases h1 : x.1 ∈ ks <;> by_cases h2 : x.1 ∈ ls <;> simp [h1, h2]

theorem without_perm {cs : List (Name × C)} (hn : (cs.map (·.1)).Nodup) {x : Name × C} (hx : x ∈ cs) : (x :: without cs [x.1]).Perm cs := by
  induction cs with
  | nil => cases hx
  | cons y cs ih =>
    simp only [List.map_cons, List.nodup_cons] at hn
    rcases List.mem_cons.mp hx with rfl | h
    · have : without (x :: cs) [x.1] = cs := by
        unfold without
        rw [List.filter_cons_of_neg (by simp)]
        apply List.filter_eq_self.mpr
        intro g hg
        have : g.1 ≠ x.1 := fun hh => hn.1 (hh ▸ List.mem_map_of_mem hg)
        simpa using this
      rw [this]
    · have hne : y.1 ≠ x.1 := fun hh => hn.1 (hh ▸ List.mem_map_of_mem h)
      have : without (y :: cs) [x.1] = y :: without cs [x.1] := by
        unfold without
        rw [List.filter_cons_of_pos (by simpa using hne)]
      rw [this]
      exact (List.Perm.swap _ _ _).trans ((ih hn.2 h).cons y)

theorem find_ent {cs : List (Name × C)} (hn : (cs.map (·.1)).Nodup) {x : Name × C} (hx : x ∈ cs) :
    (ents cs).find? (fun f => f.1 = x.1) = some (x.1, some x.2) := by
  induction cs with
  | nil => cases hx
  | cons y cs ih =>
    simp only [List.map_cons, List.nodup_cons] at hn
    rcases List.mem_cons.mp hx with rfl | h
    · simp [ents]
    · have hne : y.1 ≠ x.1 := fun hh => hn.1 (hh ▸ List.mem_map_of_mem h)
      have := ih hn.2 h
      unfold ents at this ⊢
      rw [List.map_cons, List.find?_cons_of_neg (by simpa using hne)]
      exact this

theorem runOp_move (fs : List (Name × C)) {a b : List (Name × List (Name × Option C))} {n : Name} (ha : ∀ g ∈ a, g.1 ≠ n) (hb : ∀ g ∈ b, g.1 ≠ n)
    (x : Name × C) (cs : List (Name × C)) (hn : (cs.map (·.1)).Nodup) (hx : x ∈ cs) (new : Name)
    (hnew : new ∉ fs.map (·.1)) (hnd : new ∉ a.map (·.1) ++ n :: b.map (·.1)) :
    runOp (at' fs a b n cs) (.move n x.1 new) = some (at' (fs ++ [(new, x.2)]) a b n (without cs [x.1])) := by
  have hf : (a ++ (n, ents cs) :: b).find? (fun e => e.1 = n) = some (n, ents cs) := by
    rw [List.find?_append, List.find?_eq_none.mpr (by intro g hg; simpa using ha g hg)]
    simp
  have hfe := find_ent hn hx
  have hflt : (ents cs).filter (fun f => f.1 ≠ x.1) = ents (without cs [x.1]) := by
    unfold ents without
    rw [List.filter_map]
    congr 1
    apply List.filter_congr
    intro y _
    simp
  have hmap : ∀ l : List (Name × List (Name × Option C)), (∀ g ∈ l, g.1 ≠ n) →
      l.map (fun e => if e.1 = n then (e.1, e.2.filter fun f => f.1 ≠ x.1) else e) = l := by
    intro l hl
    conv_rhs => rw [← List.map_id l]
    exact List.map_congr_left fun g hg => by rw [if_neg (hl g hg)]; rfl
  unfold at'
  simp only [runOp, hf, hfe]
  rw [if_neg (by rw [at_dirs_names]; exact hnd), putFile_new _ hnew, List.map_append, List.map_cons, hmap a ha, hmap b hb]
  simp only [if_true, hflt]

theorem at_contents (fs : List (Name × C)) (a b : List (Name × List (Name × Option C))) (n : Name) (cs : List (Name × C)) :
    (at' fs a b n cs).contents = fs.map (·.2) ++ (a.flatMap (fun e => e.2.filterMap (·.2)) ++ (cs.map (·.2) ++ b.flatMap fun e => e.2.filterMap (·.2))) := by
  unfold Disk.contents at'
  simp only [List.flatMap_append, List.flatMap_cons, ents_contents]

theorem move_perm (fs : List (Name × C)) (a b : List (Name × List (Name × Option C))) (n new : Name) (x : Name × C) (cs : List (Name × C))
    (hn : (cs.map (·.1)).Nodup) (hx : x ∈ cs) :
    (at' (fs ++ [(new, x.2)]) a b n (without cs [x.1])).contents.Perm (at' fs a b n cs).contents := by
  rw [at_contents, at_contents]
  simp only [List.map_append, List.map_cons, List.map_nil, List.append_assoc]
  refine List.Perm.append_left _ ?_
  generalize a.flatMap (fun e => e.2.filterMap (·.2)) = A
  generalize b.flatMap (fun e => e.2.filterMap (·.2)) = B
  show (x.2 :: (A ++ ((without cs [x.1]).map (·.2) ++ B))).Perm (A ++ (cs.map (·.2) ++ B))
  refine List.perm_middle.symm.trans ?_
  refine List.Perm.append_left _ ?_
  rw [← List.cons_append]
  refine List.Perm.append_right _ ?_
  have := (without_perm hn hx).map (·.2)
  simpa using this

theorem without_nodup {cs : List (Name × C)} (hn : (cs.map (·.1)).Nodup) (ks : List Name) : ((without cs ks).map (·.1)).Nodup :=
  hn.sublist (List.Sublist.map _ List.filter_sublist)

/-- Moving files one after the other out of a folder. -/
theorem runOps_moves {a b : List (Name × List (Name × Option C))} {n : Name} (ha : ∀ g ∈ a, g.1 ≠ n) (hb : ∀ g ∈ b, g.1 ≠ n)
    (dest : Name → Name) (ys : List (Name × C)) (cs : List (Name × C)) (fs : List (Name × C)) (hn : (cs.map (·.1)).Nodup) (hys : (ys.map (·.1)).Nodup)
    (hsub : ∀ y ∈ ys, y ∈ cs) (hdest : (ys.map fun y => dest y.1).Nodup) (hfs : ∀ y ∈ ys, dest y.1 ∉ fs.map (·.1))
    (hds : ∀ y ∈ ys, dest y.1 ∉ a.map (·.1) ++ n :: b.map (·.1)) :
    runOps (at' fs a b n cs) (ys.map fun y => Op.move n y.1 (dest y.1)) =
      ((List.range ys.length).map (fun k => at' (fs ++ (ys.take (k + 1)).map fun y => (dest y.1, y.2)) a b n (without cs ((ys.take (k + 1)).map (·.1)))),
        some (at' (fs ++ ys.map fun y => (dest y.1, y.2)) a b n (without cs (ys.map (·.1))))) := by
  induction ys generalizing fs cs with
  | nil => simp [runOps, without_nil]
  | cons y ys ih =>
    have hmv := runOp_move fs ha hb y cs hn (hsub y List.mem_cons_self) (dest y.1) (hfs y List.mem_cons_self) (hds y List.mem_cons_self)
    have hdest' := List.nodup_cons.mp (by simpa using hdest : (dest y.1 :: ys.map fun y => dest y.1).Nodup)
    have hys' := List.nodup_cons.mp (by simpa using hys : (y.1 :: ys.map (·.1)).Nodup)
    have hrec := ih (without cs [y.1]) (fs ++ [(dest y.1, y.2)]) (without_nodup hn _) hys'.2
      (by
        intro z hz
        unfold without
        refine List.mem_filter.mpr ⟨hsub z (List.mem_cons_of_mem _ hz), ?_⟩
        have : z.1 ≠ y.1 := fun hh => hys'.1 (hh ▸ List.mem_map_of_mem hz)
        simpa using this)
      hdest'.2
      (by
        intro z hz hmem
        rw [List.map_append, List.mem_append] at hmem
        rcases hmem with h | h
        · exact hfs z (List.mem_cons_of_mem _ hz) h
        · simp only [List.map_cons, List.map_nil, List.mem_singleton] at h
          exact hdest'.1 (h ▸ List.mem_map_of_mem (f := fun y : Name × C => dest y.1) hz))
      (fun z hz => hds z (List.mem_cons_of_mem _ hz))
    simp only [List.map_cons, runOps, hmv, hrec, List.length_cons, List.range_succ_eq_map, without_without]
    simp [Function.comp_def]

/-- All disks on the way have the same contents. -/
theorem moves_perm (a b : List (Name × List (Name × Option C))) (n : Name) (dest : Name → Name) (ys cs : List (Name × C)) (fs : List (Name × C)) (k : Nat)
    (hn : (cs.map (·.1)).Nodup) (hys : (ys.map (·.1)).Nodup) (hsub : ∀ y ∈ ys, y ∈ cs) :
    (at' (fs ++ (ys.take k).map fun y => (dest y.1, y.2)) a b n (without cs ((ys.take k).map (·.1)))).contents.Perm (at' fs a b n cs).contents := by
  induction ys generalizing fs k cs with
  | nil => simp [without_nil]
  | cons y ys ih =>
    cases k with
    | zero => simp [without_nil]
    | succ k =>
      have hys' := List.nodup_cons.mp (by simpa using hys : (y.1 :: ys.map (·.1)).Nodup)
      have h1 := ih (without cs [y.1]) (fs ++ [(dest y.1, y.2)]) k (without_nodup hn _) hys'.2 (by
        intro z hz
        unfold without
        refine List.mem_filter.mpr ⟨hsub z (List.mem_cons_of_mem _ hz), ?_⟩
        have : z.1 ≠ y.1 := fun hh => hys'.1 (hh ▸ List.mem_map_of_mem hz)
        simpa using this)
      rw [without_without] at h1
      simp only [List.take_succ_cons, List.map_cons]
      rw [show fs ++ (dest y.1, y.2) :: (ys.take k).map (fun y => (dest y.1, y.2)) = fs ++ [(dest y.1, y.2)] ++ (ys.take k).map fun y => (dest y.1, y.2) by simp]
      exact h1.trans (move_perm fs a b n _ y cs hn (hsub y List.mem_cons_self))

/-! ## One folder -/

/-- The files of a folder in the order they are moved. -/
def inOrder (cs : List (Name × C)) : List (Name × C) := cs.filter (fun f => f.1 = rootName) ++ cs.filter (fun f => f.1 ≠ rootName)

/-- Where they are moved first. -/
def firstPlace (n f : Name) : Name := if f = rootName then tempName else stem n ++ '!' :: f

/-- The root files. -/
def roots (cs : List (Name × C)) : List (Name × C) := cs.filter fun f => f.1 = rootName

theorem inOrder_perm (cs : List (Name × C)) : (inOrder cs).Perm cs := by
  unfold inOrder
  have := List.filter_append_perm (fun f : Name × C => decide (f.1 = rootName)) cs
  simpa [Bool.decide_eq_true, decide_not] using this

theorem roots_cases (cs : List (Name × C)) (hn : (cs.map (·.1)).Nodup) : (rootName ∉ cs.map (·.1) ∧ roots cs = []) ∨
    (rootName ∈ cs.map (·.1) ∧ ∃ c, roots cs = [(rootName, c)]) := by
  induction cs with
  | nil => left; simp [roots]
  | cons x cs ih =>
    simp only [List.map_cons, List.nodup_cons] at hn
    by_cases h : x.1 = rootName
    · right
      refine ⟨by simp [h], x.2, ?_⟩
      have : roots cs = [] := by
        unfold roots
        apply List.filter_eq_nil_iff.mpr
        intro y hy
        have : y.1 ≠ rootName := fun h2 => hn.1 (h ▸ h2 ▸ List.mem_map_of_mem hy)
        simpa using this
      unfold roots at this ⊢
      rw [List.filter_cons_of_pos (by simpa using h), this, ← h]
    · have hr : roots (x :: cs) = roots cs := by unfold roots; rw [List.filter_cons_of_neg (by simpa using h)]
      rcases ih hn.2 with ⟨h1, h2⟩ | ⟨h1, h2⟩
      · left; rw [hr]; exact ⟨by simp [h1, Ne.symm h], h2⟩
      · right; rw [hr]; exact ⟨by simp [h1], h2⟩

/-- The plan of a folder of files. -/
theorem plan_ops {d : Disk C} {n : Name} {cs : List (Name × C)} (hn : (cs.map (·.1)).Nodup) {ops : List Op} (h : plan d n (ents cs) = some ops) :
    ops = (inOrder cs).map (fun y => Op.move n y.1 (firstPlace n y.1)) ++ (Op.rmtree n :: (roots cs).map fun _ => Op.rename tempName (stem n ++ sdsExt)) ∧
    (rootName ∈ cs.map (·.1) → d.has tempName = false) ∧ ∀ y ∈ cs, y.1 ≠ rootName → d.has (stem n ++ '!' :: y.1) = false := by
  unfold plan at h
  split at h
  · exact absurd h (by simp)
  simp only [ents_names] at h
  split at h
  · exact absurd h (by simp)
  rename_i h1
  split at h
  · exact absurd h (by simp)
  rename_i h2
  refine ⟨?_, ?_, ?_⟩
  · rw [← Option.some.inj h]
    have ho : ((cs.map (·.1)).filter (· ≠ rootName)).map (fun f => Op.move n f (stem n ++ '!' :: f)) =
        (cs.filter (fun f => f.1 ≠ rootName)).map fun y => Op.move n y.1 (firstPlace n y.1) := by
      rw [List.filter_map, List.map_map]
      apply List.map_congr_left
      intro y hy
      have : y.1 ≠ rootName := by simpa using (List.mem_filter.mp hy).2
      simp [firstPlace, this]
    have hr : (if decide (rootName ∈ cs.map (·.1)) = true then [Op.move n rootName tempName] else []) =
        (roots cs).map fun y => Op.move n y.1 (firstPlace n y.1) := by
      rcases roots_cases cs hn with ⟨h3, h4⟩ | ⟨h3, c, h4⟩
      · rw [h4, if_neg (by simpa using h3)]; rfl
      · rw [h4, if_pos (by simpa using h3)]; simp [firstPlace]
    have hr2 : (if decide (rootName ∈ cs.map (·.1)) = true then [Op.rename tempName (stem n ++ sdsExt)] else []) =
        (roots cs).map fun _ => Op.rename tempName (stem n ++ sdsExt) := by
      rcases roots_cases cs hn with ⟨h3, h4⟩ | ⟨h3, c, h4⟩
      · rw [h4, if_neg (by simpa using h3)]; rfl
      · rw [h4, if_pos (by simpa using h3)]; rfl
    rw [ho, hr, hr2]
    unfold inOrder roots
    simp
  · intro hr
    rw [decide_eq_true hr] at h1
    simpa using h1
  · intro y hy hyr
    simp only [Bool.not_eq_true, List.any_eq_false] at h2
    have := h2 y.1 (List.mem_filter.mpr ⟨List.mem_map_of_mem hy, by simpa using hyr⟩)
    simpa using this

theorem firstPlace_inj {n f g : Name} (h : firstPlace n f = firstPlace n g) : f = g := by
  unfold firstPlace at h
  by_cases hf : f = rootName <;> by_cases hg : g = rootName
  · rw [hf, hg]
  · rw [if_pos hf, if_neg hg] at h; exact absurd h.symm (bang_ne_temp _ _)
  · rw [if_neg hf, if_pos hg] at h; exact absurd h (bang_ne_temp _ _)
  · rw [if_neg hf, if_neg hg] at h
    exact (List.cons.inj (List.append_cancel_left h)).2

theorem has_false {d : Disk C} {n : Name} (h : d.has n = false) : n ∉ d.files.map (·.1) ∧ n ∉ d.dirs.map (·.1) := by
  unfold Disk.has at h
  rw [Bool.or_eq_false_iff] at h
  exact ⟨of_decide_eq_false h.1, of_decide_eq_false h.2⟩

/-- The disks on the way while a folder is emptied. -/
def way (fs : List (Name × C)) (a b : List (Name × List (Name × Option C))) (n : Name) (cs : List (Name × C)) (k : Nat) : Disk C :=
  at' (fs ++ ((inOrder cs).take k).map fun y => (firstPlace n y.1, y.2)) a b n (without cs (((inOrder cs).take k).map (·.1)))

/-- The files that get a name with `!`. -/
def banged (n : Name) (cs : List (Name × C)) : List (Name × C) := (cs.filter fun f => f.1 ≠ rootName).map fun y => (stem n ++ '!' :: y.1, y.2)

theorem moved_eq (n : Name) (cs : List (Name × C)) :
    (inOrder cs).map (fun y => (firstPlace n y.1, y.2)) = (roots cs).map (fun y => (tempName, y.2)) ++ banged n cs := by
  unfold inOrder banged roots
  rw [List.map_append]
  congr 1
  · apply List.map_congr_left
    intro y hy
    have : y.1 = rootName := by simpa using (List.mem_filter.mp hy).2
    simp [firstPlace, this]
  · apply List.map_congr_left
    intro y hy
    have : y.1 ≠ rootName := by simpa using (List.mem_filter.mp hy).2
    simp [firstPlace, this]

/-- Emptying a folder and removing it. -/
theorem emptied {fs : List (Name × C)} {a b : List (Name × List (Name × Option C))} {n : Name} {cs : List (Name × C)}
    (ha : ∀ g ∈ a, g.1 ≠ n) (hb : ∀ g ∈ b, g.1 ≠ n) (hn : (cs.map (·.1)).Nodup)
    {ops : List Op} (h : plan (at' fs a b n cs) n (ents cs) = some ops) :
    runOps (at' fs a b n cs) ops =
      let m : Disk C := ⟨fs ++ (roots cs).map (fun y => (tempName, y.2)) ++ banged n cs, a ++ b⟩
      let r := runOps m ((roots cs).map fun _ => Op.rename tempName (stem n ++ sdsExt))
      ((List.range (inOrder cs).length).map (fun k => way fs a b n cs (k + 1)) ++ m :: r.1, r.2) := by
  obtain ⟨rfl, ht, ho⟩ := plan_ops hn h
  have hp := inOrder_perm cs
  have hys : ((inOrder cs).map (·.1)).Nodup := (hp.map (·.1)).nodup_iff.mpr hn
  have hfree : ∀ y ∈ inOrder cs, (at' fs a b n cs).has (firstPlace n y.1) = false := by
    intro y hy
    have hy' := hp.mem_iff.mp hy
    unfold firstPlace
    by_cases hr : y.1 = rootName
    · rw [if_pos hr]; exact ht (hr ▸ List.mem_map_of_mem hy')
    · rw [if_neg hr]; exact ho y hy' hr
  have hmoves := runOps_moves ha hb (firstPlace n) (inOrder cs) cs fs hn hys (fun y hy => hp.mem_iff.mp hy)
    (by
      have : (inOrder cs).map (fun y => firstPlace n y.1) = ((inOrder cs).map (·.1)).map (firstPlace n) := by rw [List.map_map]; rfl
      rw [this]
      exact hys.map fun _ _ h => firstPlace_inj h)
    (fun y hy => (has_false (hfree y hy)).1)
    (fun y hy => by
      have := (has_false (hfree y hy)).2
      unfold at' at this
      rw [at_dirs_names] at this
      exact this)
  have hempty : without cs ((inOrder cs).map (·.1)) = [] := by
    unfold without
    apply List.filter_eq_nil_iff.mpr
    intro y hy
    have : y.1 ∈ (inOrder cs).map (·.1) := List.mem_map_of_mem (hp.mem_iff.mpr hy)
    simpa using this
  rw [runOps_append, hmoves, hempty]
  have hrm : ∀ F : List (Name × C), runOp (at' F a b n []) (.rmtree n) = some ⟨F, a ++ b⟩ := by
    intro F
    simp only [runOp, at']
    congr 2
    rw [List.filter_append, List.filter_cons_of_neg (by simp), List.filter_eq_self.mpr (fun g hg => by simpa using ha g hg),
      List.filter_eq_self.mpr (fun g hg => by simpa using hb g hg)]
  simp only [runOps, hrm, moved_eq, way, List.append_assoc]

theorem way_perm (fs : List (Name × C)) (a b : List (Name × List (Name × Option C))) (n : Name) (cs : List (Name × C)) (hn : (cs.map (·.1)).Nodup) (k : Nat) :
    (way fs a b n cs k).contents.Perm (at' fs a b n cs).contents := by
  have hp := inOrder_perm cs
  exact moves_perm a b n (firstPlace n) (inOrder cs) cs fs k hn ((hp.map (·.1)).nodup_iff.mpr hn) fun y hy => hp.mem_iff.mp hy

theorem emptied_perm (fs : List (Name × C)) (a b : List (Name × List (Name × Option C))) (n : Name) (cs : List (Name × C)) :
    (⟨fs ++ (roots cs).map (fun y => (tempName, y.2)) ++ banged n cs, a ++ b⟩ : Disk C).contents.Perm (at' fs a b n cs).contents := by
  rw [at_contents]
  unfold Disk.contents
  simp only [List.map_append, List.append_assoc, List.flatMap_append]
  refine List.Perm.append_left _ ?_
  have h1 : (((roots cs).map fun y => (tempName, y.2)).map (·.2) ++ (banged n cs).map (·.2)).Perm (cs.map (·.2)) := by
    have := (inOrder_perm cs).map (·.2)
    unfold inOrder at this
    rw [List.map_append] at this
    simpa [banged, roots, List.map_map, Function.comp_def] using this
  rw [← List.append_assoc]
  refine (List.Perm.append_right _ h1).trans ?_
  rw [← List.append_assoc, ← List.append_assoc]
  exact List.Perm.append_right _ List.perm_append_comm

/-- The last renaming. -/
theorem last_rename {F G : List (Name × C)} {D : List (Name × List (Name × Option C))} {c : C} {new : Name} (hF : tempName ∉ F.map (·.1))
    (hG : tempName ∉ G.map (·.1)) (hnew : new ∉ F.map (·.1) ++ G.map (·.1)) (hD : new ∉ D.map (·.1)) :
    runOp ⟨F ++ [(tempName, c)] ++ G, D⟩ (.rename tempName new) = some ⟨F ++ G ++ [(new, c)], D⟩ := by
  have hnf : ∀ x ∈ F, x.1 ≠ tempName := fun x hx h => hF (h ▸ List.mem_map_of_mem hx)
  have hng : ∀ x ∈ G, x.1 ≠ tempName := fun x hx h => hG (h ▸ List.mem_map_of_mem hx)
  have hfind : (F ++ [(tempName, c)] ++ G).find? (fun e => e.1 = tempName) = some (tempName, c) := by
    rw [List.append_assoc, List.find?_append, List.find?_eq_none.mpr (fun x hx => by simpa using hnf x hx)]
    simp
  have hflt : (F ++ [(tempName, c)] ++ G).filter (fun f => f.1 ≠ tempName) = F ++ G := by
    have h1 : F.filter (fun f => f.1 ≠ tempName) = F := List.filter_eq_self.mpr fun x hx => by simpa using hnf x hx
    have h2 : G.filter (fun f => f.1 ≠ tempName) = G := List.filter_eq_self.mpr fun x hx => by simpa using hng x hx
    rw [List.filter_append, List.filter_append, h1, h2]
    simp
  simp only [runOp, hfind]
  rw [if_neg hD, hflt, putFile_new _ (by rw [List.map_append]; exact hnew)]

end Verif.Flatten
