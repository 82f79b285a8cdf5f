import Verif.Flatten.Safe
/-! # Flattening a folder of .sds files: one folder -/
namespace Verif.Flatten
open Verif.Items (Name)
open Verif.Sds (endsSds sdsExt)

variable {C : Type}

/-- The files of a folder. -/
def filesOf (es : List (Name × Option C)) : List (Name × C) := es.filterMap fun f => f.2.map fun c => (f.1, c)

theorem ents_filesOf {es : List (Name × Option C)} (h : ∀ f ∈ es, f.2.isSome) : ents (filesOf es) = es := by
  induction es with
  | nil => rfl
  | cons f es ih =>
    obtain ⟨n, o⟩ := f
    have h0 := h (n, o) List.mem_cons_self
    obtain ⟨c, hc⟩ := Option.isSome_iff_exists.mp h0
    simp only at hc
    subst hc
    have := ih fun g hg => h g (List.mem_cons_of_mem _ hg)
    unfold ents filesOf at this ⊢
    simp only [List.filterMap_cons, Option.map_some, List.map_cons, this]

theorem plan_some {d : Disk C} {n : Name} {es : List (Name × Option C)} {ops : List Op} (h : plan d n es = some ops) :
    ∀ f ∈ es, f.2.isSome ∧ endsSds f.1 = true := by
  unfold plan at h
  split at h
  · cases h
  · rename_i hany
    intro f hf
    rw [List.any_eq_true] at hany
    have h2 : ¬ ((!endsSds f.1 || f.2.isNone) = true) := fun hh => hany ⟨f, hf, hh⟩
    cases h3 : f.2 <;> simp_all

/-- The disk after a folder has been flattened. -/
def done (fs : List (Name × C)) (a b : List (Name × List (Name × Option C))) (n : Name) (cs : List (Name × C)) : Disk C :=
  ⟨fs ++ banged n cs ++ (roots cs).map (fun y => (stem n ++ sdsExt, y.2)), a ++ b⟩

theorem done_contents (fs : List (Name × C)) (a b : List (Name × List (Name × Option C))) (n : Name) (cs : List (Name × C)) :
    (done fs a b n cs).contents.Perm (at' fs a b n cs).contents := by
  refine List.Perm.trans ?_ (emptied_perm fs a b n cs)
  unfold done Disk.contents
  refine List.Perm.append_right _ ?_
  simp only [List.map_append, List.append_assoc, List.map_map, Function.comp_def]
  exact List.Perm.append_left _ List.perm_append_comm

/-- One folder that is flattened. -/
structure Step (d : Disk C) (n : Name) (es : List (Name × Option C)) (ops : List Op) (fs : List (Name × C))
    (a b : List (Name × List (Name × Option C))) (cs : List (Name × C)) : Prop where
  here : d = at' fs a b n cs
  ents : es = ents cs
  ha : ∀ g ∈ a, g.1 ≠ n
  hb : ∀ g ∈ b, g.1 ≠ n
  nodup : (cs.map (·.1)).Nodup
  temp : rootName ∈ cs.map (·.1) → tempName ∉ fs.map (·.1) ∧ tempName ∉ d.dirs.map (·.1)
  free : ∀ f ∈ cs, f.1 ≠ rootName → stem n ++ '!' :: f.1 ∉ fs.map (·.1) ∧ stem n ++ '!' :: f.1 ∉ d.dirs.map (·.1)
  run : runOps d ops =
      let m : Disk C := ⟨fs ++ (roots cs).map (fun y => (tempName, y.2)) ++ banged n cs, a ++ b⟩
      let r := runOps m ((roots cs).map fun _ => Op.rename tempName (stem n ++ sdsExt))
      ((List.range (inOrder cs).length).map (fun k => way fs a b n cs (k + 1)) ++ m :: r.1, r.2)

theorem step {d : Disk C} (hp : d.Proper) {n : Name} {es : List (Name × Option C)} (he : (n, es) ∈ d.dirs) {ops : List Op}
    (h : plan d n es = some ops) : ∃ fs a b cs, Step d n es ops fs a b cs := by
  obtain ⟨fs, ds⟩ := d
  have hnd := (List.nodup_append.mp hp.names).2.1
  obtain ⟨a, b, hds, ha, hb⟩ := dirs_split hnd he
  have hes := ents_filesOf fun f hf => (plan_some h f hf).1
  have hn : ((filesOf es).map (·.1)).Nodup := by
    rw [← ents_names, hes]; exact hp.entries _ he
  have hd : (⟨fs, ds⟩ : Disk C) = at' fs a b n (filesOf es) := by
    unfold at'; rw [hes, ← hds]
  have h' : plan (at' fs a b n (filesOf es)) n (ents (filesOf es)) = some ops := by rw [hes, ← hd]; exact h
  obtain ⟨_, ht, ho⟩ := plan_ops hn h'
  refine ⟨fs, a, b, filesOf es, ⟨hd, hes.symm, ha, hb, hn, ?_, ?_, ?_⟩⟩
  · intro hr; rw [hd]; exact has_false (ht hr)
  · intro f hf hne; rw [hd]; exact has_false (ho f hf hne)
  · rw [hd]; exact emptied ha hb hn h'

theorem banged_names (n : Name) (cs : List (Name × C)) {t : Name} (h : t ∈ (banged n cs).map (·.1)) : ∃ f ∈ cs, f.1 ≠ rootName ∧ t = stem n ++ '!' :: f.1 := by
  unfold banged at h
  rw [List.map_map] at h
  obtain ⟨f, hf, rfl⟩ := List.mem_map.mp h
  have := List.mem_filter.mp hf
  exact ⟨f, this.1, by simpa using this.2, rfl⟩

/-- The end of a folder whose `_root.sds` has a free place. -/
theorem Step.finish {d : Disk C} {n : Name} {es : List (Name × Option C)} {ops : List Op} {fs : List (Name × C)} {a b : List (Name × List (Name × Option C))}
    {cs : List (Name × C)} (s : Step d n es ops fs a b cs) (hfree : rootName ∈ cs.map (·.1) → stem n ++ sdsExt ∉ fs.map (·.1)) :
    (∀ x ∈ (runOps d ops).1, x.contents.Perm d.contents) ∧ (∀ d', (runOps d ops).2 = some d' → d' = done fs a b n cs) ∧
    ((rootName ∈ cs.map (·.1) → stem n ++ sdsExt ∉ (a ++ b).map (·.1)) → (runOps d ops).2 = some (done fs a b n cs)) ∧
    ((rootName ∈ cs.map (·.1) ∧ stem n ++ sdsExt ∈ (a ++ b).map (·.1)) → (runOps d ops).2 = none) := by
  rw [s.run, s.here]
  have hway : ∀ x ∈ (List.range (inOrder cs).length).map (fun k => way fs a b n cs (k + 1)), x.contents.Perm (at' fs a b n cs).contents := by
    intro x hx
    obtain ⟨k, _, rfl⟩ := List.mem_map.mp hx
    exact way_perm fs a b n cs s.nodup (k + 1)
  rcases roots_cases cs s.nodup with ⟨hno, hroots⟩ | ⟨hmem, c, hroots⟩
  · simp only [hroots, List.map_nil, runOps, List.append_nil]
    have hdone : done fs a b n cs = ⟨fs ++ banged n cs, a ++ b⟩ := by unfold done; rw [hroots]; simp
    refine ⟨?_, ?_, ?_, ?_⟩
    · intro x hx
      rcases List.mem_append.mp hx with h | h
      · exact hway x h
      · rw [List.mem_singleton] at h
        subst h
        rw [← hdone]
        exact done_contents fs a b n cs
    · intro d' h
      rw [hdone]; exact (Option.some.inj h).symm
    · intro _; rw [hdone]
    · intro h; exact absurd h.1 hno
  · have htemp := s.temp hmem
    have hG : tempName ∉ (banged n cs).map (·.1) := by
      intro h
      obtain ⟨f, _, _, hf⟩ := banged_names n cs h
      exact bang_ne_temp _ _ hf.symm
    have hnew : stem n ++ sdsExt ∉ fs.map (·.1) ++ (banged n cs).map (·.1) := by
      intro h
      rcases List.mem_append.mp h with h | h
      · exact hfree hmem h
      · obtain ⟨f, _, _, hf⟩ := banged_names n cs h
        exact bang_ne_ext _ _ hf.symm
    have hm : (⟨fs ++ [(tempName, c)] ++ banged n cs, a ++ b⟩ : Disk C).contents.Perm (at' fs a b n cs).contents := by
      have := emptied_perm fs a b n cs
      rw [hroots] at this
      exact this
    have hdone : done fs a b n cs = ⟨fs ++ banged n cs ++ [(stem n ++ sdsExt, c)], a ++ b⟩ := by unfold done; rw [hroots]; simp
    simp only [hroots, List.map_cons, List.map_nil]
    by_cases hD : stem n ++ sdsExt ∈ (a ++ b).map (·.1)
    · have hr : runOp (⟨fs ++ [(tempName, c)] ++ banged n cs, a ++ b⟩ : Disk C) (.rename tempName (stem n ++ sdsExt)) = none := by
        simp only [runOp]
        cases (fs ++ [(tempName, c)] ++ banged n cs).find? (fun e => e.1 = tempName) with
        | none => rfl
        | some e => simp only; rw [if_pos hD]
      simp only [runOps, hr]
      refine ⟨?_, ?_, ?_, ?_⟩
      · intro x hx
        rcases List.mem_append.mp hx with h | h
        · exact hway x h
        · rw [List.mem_singleton] at h
          subst h
          exact hm
      · intro d' h; cases h
      · intro h; exact absurd hD (h hmem)
      · intro _; trivial
    · have hr := last_rename (c := c) htemp.1 hG hnew hD
      simp only [runOps, hr]
      refine ⟨?_, ?_, ?_, ?_⟩
      · intro x hx
        rcases List.mem_append.mp hx with h | h
        · exact hway x h
        · rcases List.mem_cons.mp h with h | h
          · subst h; exact hm
          · rw [List.mem_singleton] at h
            subst h
            rw [← hdone]
            exact done_contents fs a b n cs
      · intro d' h; rw [hdone]; exact (Option.some.inj h).symm
      · intro _; rw [hdone]
      · intro h; exact absurd h.2 hD

/-- The names in a flattened folder's places. -/
theorem done_names {fs : List (Name × C)} {a b : List (Name × List (Name × Option C))} {n : Name} {cs : List (Name × C)} {t : Name}
    (h : t ∈ (done fs a b n cs).files.map (·.1)) : t ∈ fs.map (·.1) ∨ ∃ f ∈ cs, t = place n f.1 := by
  unfold done at h
  simp only [List.map_append, List.mem_append] at h
  rcases h with (h | h) | h
  · exact Or.inl h
  · obtain ⟨f, hf, hne, rfl⟩ := banged_names n cs h
    exact Or.inr ⟨f, hf, by simp [place, hne]⟩
  · rw [List.map_map] at h
    obtain ⟨f, hf, rfl⟩ := List.mem_map.mp h
    have := List.mem_filter.mp hf
    have hr : f.1 = rootName := by simpa using this.2
    exact Or.inr ⟨f, this.1, by simp [place, hr]⟩

theorem done_files (fs : List (Name × C)) (a b : List (Name × List (Name × Option C))) (n : Name) (cs : List (Name × C)) (t : Name) (c : C) :
    (t, c) ∈ (done fs a b n cs).files ↔ (t, c) ∈ fs ∨ ∃ f ∈ cs, f.2 = c ∧ t = place n f.1 := by
  unfold done
  simp only [List.mem_append]
  constructor
  · rintro ((h | h) | h)
    · exact Or.inl h
    · unfold banged at h
      obtain ⟨f, hf, heq⟩ := List.mem_map.mp h
      have := List.mem_filter.mp hf
      have hne : f.1 ≠ rootName := by simpa using this.2
      injection heq with h1 h2
      exact Or.inr ⟨f, this.1, h2, by simp [place, hne, ← h1]⟩
    · obtain ⟨f, hf, heq⟩ := List.mem_map.mp h
      have := List.mem_filter.mp hf
      have hr : f.1 = rootName := by simpa using this.2
      injection heq with h1 h2
      exact Or.inr ⟨f, this.1, h2, by simp [place, hr, ← h1]⟩
  · rintro (h | ⟨f, hf, rfl, rfl⟩)
    · exact Or.inl (Or.inl h)
    · by_cases hr : f.1 = rootName
      · refine Or.inr (List.mem_map.mpr ⟨f, List.mem_filter.mpr ⟨hf, by simpa using hr⟩, by simp [place, hr]⟩)
      · refine Or.inl (Or.inr ?_)
        unfold banged
        exact List.mem_map.mpr ⟨f, List.mem_filter.mpr ⟨hf, by simpa using hr⟩, by simp [place, hr]⟩

theorem place_inj {n f g : Name} (h : place n f = place n g) : f = g := by
  unfold place at h
  split at h <;> split at h
  · rename_i h1 h2; exact h1.trans h2.symm
  · exact absurd h.symm (bang_ne_ext _ _)
  · exact absurd h (bang_ne_ext _ _)
  · exact (List.cons.inj (List.append_cancel_left h)).2

/-- A flattened folder leaves a proper disk. -/
theorem Step.proper {d : Disk C} {n : Name} {es : List (Name × Option C)} {ops : List Op} {fs : List (Name × C)} {a b : List (Name × List (Name × Option C))}
    {cs : List (Name × C)} (s : Step d n es ops fs a b cs) (hp : d.Proper) (hfree : rootName ∈ cs.map (·.1) → stem n ++ sdsExt ∉ fs.map (·.1))
    (hD : rootName ∈ cs.map (·.1) → stem n ++ sdsExt ∉ (a ++ b).map (·.1)) : (done fs a b n cs).Proper := by
  have hd := s.here
  subst hd
  have hnames := hp.names
  have hpl : ∀ f ∈ cs, place n f.1 ∉ fs.map (·.1) ∧ place n f.1 ∉ (a ++ b).map (·.1) := by
    intro f hf
    by_cases hr : f.1 = rootName
    · have hm : rootName ∈ cs.map (·.1) := hr ▸ List.mem_map_of_mem hf
      have : place n f.1 = stem n ++ sdsExt := by simp [place, hr]
      rw [this]
      exact ⟨hfree hm, hD hm⟩
    · have := s.free f hf hr
      have hpe : place n f.1 = stem n ++ '!' :: f.1 := by simp [place, hr]
      rw [hpe]
      refine ⟨this.1, fun hmem => this.2 ?_⟩
      unfold at'
      rw [at_dirs_names]
      rw [List.map_append] at hmem
      rcases List.mem_append.mp hmem with h | h
      · exact List.mem_append_left _ h
      · exact List.mem_append_right _ (List.mem_cons_of_mem _ h)
  have hab : ((a ++ b).map (·.1)).Sublist ((at' fs a b n cs).dirs.map (·.1)) := by
    unfold at'
    exact List.Sublist.map _ (List.Sublist.append_left (List.sublist_cons_self _ _) _)
  have hn1 := List.nodup_append.mp hnames
  constructor
  · refine List.nodup_append.mpr ⟨?_, hn1.2.1.sublist hab, ?_⟩
    · unfold done
      have hperm : (banged n cs ++ (roots cs).map fun y => (stem n ++ sdsExt, y.2)).map (·.1) = (((cs.filter fun f => f.1 ≠ rootName) ++ roots cs).map (·.1)).map (place n) := by
        unfold banged
        rw [List.map_append, List.map_append, List.map_append, List.map_map, List.map_map, List.map_map, List.map_map]
        congr 1
        · apply List.map_congr_left
          intro y hy
          have : y.1 ≠ rootName := by simpa using (List.mem_filter.mp hy).2
          simp [place, this]
        · apply List.map_congr_left
          intro y hy
          have : y.1 = rootName := by simpa using (List.mem_filter.mp hy).2
          simp [place, this]
      rw [List.append_assoc, List.map_append]
      refine List.nodup_append.mpr ⟨hn1.1, ?_, ?_⟩
      · rw [hperm]
        refine List.Nodup.map (fun _ _ h => place_inj h) ?_
        have hpp : ((cs.filter fun f => f.1 ≠ rootName) ++ roots cs).Perm cs := List.perm_append_comm.trans (inOrder_perm cs)
        exact (hpp.map (·.1)).nodup_iff.mpr s.nodup
      · intro x hx y hy hxy
        rw [hperm, List.map_map] at hy
        obtain ⟨f, hf, rfl⟩ := List.mem_map.mp hy
        have hf' : f ∈ cs := by
          rcases List.mem_append.mp hf with h | h
          · exact (List.mem_filter.mp h).1
          · exact (List.mem_filter.mp h).1
        have hxy' : x = place n f.1 := hxy
        exact (hpl f hf').1 (hxy' ▸ hx)
    · intro x hx y hy hxy
      rcases done_names hx with h | ⟨f, hf, rfl⟩
      · exact hn1.2.2 x h y (hab.subset hy) hxy
      · exact (hpl f hf).2 (hxy ▸ hy)
  · intro e he
    apply hp.entries
    unfold at'
    unfold done at he
    rcases List.mem_append.mp he with h | h
    · exact List.mem_append_left _ h
    · exact List.mem_append_right _ (List.mem_cons_of_mem _ h)

theorem Step.dir_mem {d : Disk C} {n : Name} {es : List (Name × Option C)} {ops : List Op} {fs : List (Name × C)} {a b : List (Name × List (Name × Option C))}
    {cs : List (Name × C)} (s : Step d n es ops fs a b cs) (e : Name × List (Name × Option C)) : e ∈ d.dirs ↔ e ∈ a ++ b ∨ e = (n, es) := by
  rw [s.here]
  unfold at'
  rw [s.ents]
  simp only [List.mem_append, List.mem_cons]
  tauto

theorem Step.entry {d : Disk C} {n : Name} {es : List (Name × Option C)} {ops : List Op} {fs : List (Name × C)} {a b : List (Name × List (Name × Option C))}
    {cs : List (Name × C)} (s : Step d n es ops fs a b cs) {f : Name × C} (hf : f ∈ cs) : (f.1, some f.2) ∈ es := by
  rw [s.ents]; unfold Flatten.ents; exact List.mem_map.mpr ⟨f, hf, rfl⟩

theorem Step.names {d : Disk C} {n : Name} {es : List (Name × Option C)} {ops : List Op} {fs : List (Name × C)} {a b : List (Name × List (Name × Option C))}
    {cs : List (Name × C)} (s : Step d n es ops fs a b cs) : es.map (·.1) = cs.map (·.1) := by
  rw [s.ents, ents_names]

theorem Step.files {d : Disk C} {n : Name} {es : List (Name × Option C)} {ops : List Op} {fs : List (Name × C)} {a b : List (Name × List (Name × Option C))}
    {cs : List (Name × C)} (s : Step d n es ops fs a b cs) : d.files = fs := by
  rw [s.here]; rfl

end Verif.Flatten
