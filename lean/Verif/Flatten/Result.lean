import Verif.Flatten.Step
/-!
# Flattening a folder of .sds files: interrupted and complete runs

No file is lost wherever a run is interrupted, as long as no `_root.sds` goes to a place that is taken; a complete run leaves folders whole or moves all of
their files to the documented places.
-/
namespace Verif.Flatten
open Verif.Items (Name)
open Verif.Sds (endsSds sdsExt)

variable {C : Type}

theorem rootFree_done {d : Disk C} {n : Name} {es : List (Name × Option C)} {ops : List Op} {fs : List (Name × C)} {a b : List (Name × List (Name × Option C))}
    {cs : List (Name × C)} (s : Step d n es ops fs a b cs) (hr : d.RootFree) : (done fs a b n cs).RootFree := by
  intro e he hroot t ht
  have hed : e ∈ d.dirs := (s.dir_mem e).mpr (Or.inl he)
  have hne : e.1 ≠ n := by
    rcases List.mem_append.mp he with h | h
    · exact s.ha e h
    · exact s.hb e h
  have h := hr e hed hroot t ht
  refine ⟨?_, fun g hg => h.2 g ((s.dir_mem g).mpr (Or.inl hg))⟩
  intro hmem
  rcases done_names hmem with h1 | ⟨f, hf, h1⟩
  · exact h.1 (s.files ▸ h1)
  · exact hne (h.2 (n, es) ((s.dir_mem _).mpr (Or.inr rfl)) (f.1, some f.2) (s.entry hf) ((place_iff _ _ _).mpr h1)).symm

theorem rootFree_at {d : Disk C} {n : Name} {es : List (Name × Option C)} {ops : List Op} {fs : List (Name × C)} {a b : List (Name × List (Name × Option C))}
    {cs : List (Name × C)} (s : Step d n es ops fs a b cs) (hr : d.RootFree) : rootName ∈ cs.map (·.1) → stem n ++ sdsExt ∉ fs.map (·.1) := by
  intro hmem
  have := (hr (n, es) ((s.dir_mem _).mpr (Or.inr rfl)) (s.names ▸ hmem) _ ((place_iff n rootName _).mpr rfl)).1
  rw [s.files] at this
  simpa [place] using this

/-- The run over a list of folders, taken apart at the first. -/
theorem trace_cons {d : Disk C} (hp : d.Proper) {n : Name} {ns : List Name} (hn : n ∈ d.dirs.map (·.1)) :
    ∃ es, (n, es) ∈ d.dirs ∧ ((plan d n es = none ∧ trace (n :: ns) d = trace ns d) ∨
      ∃ ops, plan d n es = some ops ∧ (((runOps d ops).2 = none ∧ trace (n :: ns) d = (runOps d ops).1) ∨
        ∃ d', (runOps d ops).2 = some d' ∧ trace (n :: ns) d = (runOps d ops).1 ++ trace ns d')) := by
  obtain ⟨e, he, rfl⟩ := List.mem_map.mp hn
  have hf := find_dir (List.nodup_append.mp hp.names).2.1 he
  refine ⟨e.2, he, ?_⟩
  simp only [trace, hf]
  cases hpl : plan d e.1 e.2 with
  | none => exact Or.inl ⟨rfl, rfl⟩
  | some ops =>
    refine Or.inr ⟨ops, rfl, ?_⟩
    cases hr : runOps d ops with
    | mk ds o => cases o with
      | none => refine Or.inl ⟨rfl, ?_⟩; simp only [hr]
      | some d' => refine Or.inr ⟨d', rfl, ?_⟩; simp only [hr]

theorem still_dirs {d : Disk C} {n : Name} {es : List (Name × Option C)} {ops : List Op} {fs : List (Name × C)} {a b : List (Name × List (Name × Option C))}
    {cs : List (Name × C)} (s : Step d n es ops fs a b cs) {m : Name} (hm : m ∈ d.dirs.map (·.1)) (hne : m ≠ n) : m ∈ (done fs a b n cs).dirs.map (·.1) := by
  obtain ⟨e, he, rfl⟩ := List.mem_map.mp hm
  rcases (s.dir_mem e).mp he with h | rfl
  · exact List.mem_map_of_mem h
  · exact absurd rfl hne

theorem trace_no_loss (ns : List Name) (d : Disk C) (hp : d.Proper) (hr : d.RootFree) (hns : ∀ n ∈ ns, n ∈ d.dirs.map (·.1)) (hnd : ns.Nodup) :
    ∀ x ∈ trace ns d, x.contents.Perm d.contents := by
  induction ns generalizing d with
  | nil => intro x hx; cases hx
  | cons n ns ih =>
    obtain ⟨es, he, h⟩ := trace_cons (ns := ns) hp (hns n List.mem_cons_self)
    have hnd' := List.nodup_cons.mp hnd
    rcases h with ⟨_, ht⟩ | ⟨ops, hpl, h⟩
    · rw [ht]
      exact ih d hp hr (fun m hm => hns m (List.mem_cons_of_mem _ hm)) hnd'.2
    · obtain ⟨fs, a, b, cs, s⟩ := step hp he hpl
      obtain ⟨h1, h2, h3, h4⟩ := s.finish (rootFree_at s hr)
      rcases h with ⟨_, ht⟩ | ⟨d', hd', ht⟩
      · rw [ht]; exact h1
      · rw [ht]
        have hdd := h2 d' hd'
        subst hdd
        intro x hx
        rcases List.mem_append.mp hx with hx | hx
        · exact h1 x hx
        · have hD : rootName ∈ cs.map (·.1) → stem n ++ sdsExt ∉ (a ++ b).map (·.1) := by
            intro hm hmem
            rw [h4 ⟨hm, hmem⟩] at hd'
            cases hd'
          have hpr := s.proper hp (rootFree_at s hr) hD
          have := ih _ hpr (rootFree_done s hr) (fun m hm => still_dirs s (hns m (List.mem_cons_of_mem _ hm)) (fun hh => hnd'.1 (hh ▸ hm))) hnd'.2 x hx
          refine this.trans ?_
          rw [s.here]
          exact done_contents fs a b n cs

/-- **No file is lost wherever the run stops** (interrupted between two operations of the disk, or by an exception): the contents on the disk are those there were, as long
as the place of no `_root.sds` is taken (by a file of the root folder, or as the place of a file of another folder).  `sds_flatten`, rt_sds.py:368-504.
Missing: see `no_loss_counterexample`. -/
theorem no_loss_partial (d : Disk C) (hp : d.Proper) (hr : d.RootFree) (x : Disk C) (hx : x ∈ flatten d) : x.contents.Perm d.contents := by
  rcases List.mem_cons.mp hx with rfl | h
  · exact List.Perm.refl _
  · exact trace_no_loss _ d hp hr (fun n hn => hn) (List.nodup_append.mp hp.names).2.1 x h

/-! ## Complete runs -/

/-- What the run over these folders leaves. -/
def last (ns : List Name) (d : Disk C) : Disk C := (trace ns d).getLast?.getD d

theorem runOps_last {d d' : Disk C} {ops : List Op} (h : (runOps d ops).2 = some d') : (runOps d ops).1.getLast?.getD d = d' := by
  induction ops generalizing d with
  | nil => simpa [runOps] using h
  | cons op ops ih =>
    simp only [runOps] at h ⊢
    cases hop : runOp d op with
    | none => rw [hop] at h; cases h
    | some e =>
      rw [hop] at h
      have := ih h
      simp only [List.getLast?_cons, Option.getD_some]
      exact this

theorem last_skip {ns ms : List Name} {d : Disk C} (h : trace ms d = trace ns d) : last ms d = last ns d := by
  unfold last; rw [h]

theorem last_step {ns ms : List Name} {d d' : Disk C} {ops : List Op} (hd : (runOps d ops).2 = some d') (h : trace ms d = (runOps d ops).1 ++ trace ns d') : last ms d = last ns d' := by
  unfold last
  rw [h, List.getLast?_append]
  cases ht : (trace ns d').getLast? with
  | none => simpa using runOps_last hd
  | some x => simp

theorem rootNoFolder_at {d : Disk C} {n : Name} {es : List (Name × Option C)} {ops : List Op} {fs : List (Name × C)} {a b : List (Name × List (Name × Option C))}
    {cs : List (Name × C)} (s : Step d n es ops fs a b cs) (hr : d.RootNoFolder) : rootName ∈ cs.map (·.1) → stem n ++ sdsExt ∉ (a ++ b).map (·.1) := by
  intro hmem hin
  obtain ⟨g, hg, hge⟩ := List.mem_map.mp hin
  have hne : g.1 ≠ n := by
    rcases List.mem_append.mp hg with h | h
    · exact s.ha g h
    · exact s.hb g h
  refine hne (hr (n, es) ((s.dir_mem _).mpr (Or.inr rfl)) (s.names ▸ hmem) (stem n ++ sdsExt) ((place_iff n rootName _).mpr (by simp [place])) g ((s.dir_mem g).mpr (Or.inl hg)) hge.symm)

theorem rootNoFolder_done {d : Disk C} {n : Name} {es : List (Name × Option C)} {ops : List Op} {fs : List (Name × C)} {a b : List (Name × List (Name × Option C))}
    {cs : List (Name × C)} (s : Step d n es ops fs a b cs) (hr : d.RootNoFolder) : (done fs a b n cs).RootNoFolder :=
  fun e he hroot t ht g hg => hr e ((s.dir_mem e).mpr (Or.inl he)) hroot t ht g ((s.dir_mem g).mpr (Or.inl hg))

theorem last_whole (ns : List Name) (d : Disk C) (hp : d.Proper) (hr : d.RootFree) (hf : d.RootNoFolder) (hns : ∀ n ∈ ns, n ∈ d.dirs.map (·.1)) (hnd : ns.Nodup) :
    (last ns d).Proper ∧ (∀ x ∈ d.files, x ∈ (last ns d).files) ∧ (∀ e ∈ (last ns d).dirs, e ∈ d.dirs) ∧
    (∀ e ∈ d.dirs, e ∈ (last ns d).dirs ∨ ∀ f ∈ e.2, ∃ c, f.2 = some c ∧ (place e.1 f.1, c) ∈ (last ns d).files) ∧
    ∀ x ∈ (last ns d).files, x ∈ d.files ∨ ∃ e ∈ d.dirs, e ∉ (last ns d).dirs ∧ ∃ f ∈ e.2, f.2 = some x.2 ∧ x.1 = place e.1 f.1 := by
  induction ns generalizing d with
  | nil =>
    refine ⟨by simpa [last, trace] using hp, ?_, ?_, ?_, ?_⟩
    · intro x hx; simpa [last, trace] using hx
    · intro x hx; simpa [last, trace] using hx
    · intro e he; left; simpa [last, trace] using he
    · intro x hx; left; simpa [last, trace] using hx
  | cons n ns ih =>
    obtain ⟨es, he, h⟩ := trace_cons (ns := ns) hp (hns n List.mem_cons_self)
    have hnd' := List.nodup_cons.mp hnd
    rcases h with ⟨_, ht⟩ | ⟨ops, hpl, h⟩
    · rw [last_skip ht]
      exact ih d hp hr hf (fun m hm => hns m (List.mem_cons_of_mem _ hm)) hnd'.2
    · obtain ⟨fs, a, b, cs, s⟩ := step hp he hpl
      obtain ⟨h1, h2, h3, h4⟩ := s.finish (rootFree_at s hr)
      have hrun := h3 (rootNoFolder_at s hf)
      rcases h with ⟨hno, ht⟩ | ⟨d', hd', ht⟩
      · rw [hrun] at hno; cases hno
      · have hdd := h2 d' hd'
        subst hdd
        rw [last_step hd' ht]
        have hpr := s.proper hp (rootFree_at s hr) (rootNoFolder_at s hf)
        obtain ⟨i1, i2, i3, i4, i5⟩ := ih _ hpr (rootFree_done s hr) (rootNoFolder_done s hf)
          (fun m hm => still_dirs s (hns m (List.mem_cons_of_mem _ hm)) (fun hh => hnd'.1 (hh ▸ hm))) hnd'.2
        have hgone : ∀ e ∈ (last ns (done fs a b n cs)).dirs, e.1 ≠ n := by
          intro e he'
          rcases List.mem_append.mp (i3 e he') with h | h
          · exact s.ha e h
          · exact s.hb e h
        refine ⟨i1, ?_, ?_, ?_, ?_⟩
        · intro x hx
          obtain ⟨t, c⟩ := x
          exact i2 _ ((done_files fs a b n cs t c).mpr (Or.inl (s.files ▸ hx)))
        · intro e he'
          exact (s.dir_mem e).mpr (Or.inl (i3 e he'))
        · intro e he'
          rcases (s.dir_mem e).mp he' with h | rfl
          · exact i4 e h
          · right
            intro f hfe
            rw [s.ents] at hfe
            obtain ⟨y, hy, rfl⟩ := List.mem_map.mp hfe
            exact ⟨y.2, rfl, i2 _ ((done_files fs a b n cs _ _).mpr (Or.inr ⟨y, hy, rfl, rfl⟩))⟩
        · intro x hx
          rcases i5 x hx with h | ⟨e, he', hno, f, hfe, h⟩
          · obtain ⟨t, c⟩ := x
            rcases (done_files fs a b n cs t c).mp h with h | ⟨f, hfc, h, h'⟩
            · left; rw [s.files]; exact h
            · right
              refine ⟨(n, es), (s.dir_mem _).mpr (Or.inr rfl), fun hh => hgone _ hh rfl, (f.1, some f.2), s.entry hfc, ?_, h'⟩
              simp [h]
          · exact Or.inr ⟨e, (s.dir_mem e).mpr (Or.inl he'), hno, f, hfe, h⟩

/-- **A complete run leaves each folder whole, or moves all of its files to the documented places**: every file of the root folder is still there, every folder is unchanged or all
its files are at their places, and every file in the root folder was there before or is one of a folder that is gone, at its place; no two files of one name.
Hypotheses: no `_root.sds` has a place that is taken.  `sds_flatten`, rt_sds.py:368-504. Missing: `no_loss_counterexample`, `raise_counterexample`. -/
theorem whole_or_nothing_partial (d : Disk C) (hp : d.Proper) (hr : d.RootFree) (hf : d.RootNoFolder) :
    (final d).Proper ∧ (∀ x ∈ d.files, x ∈ (final d).files) ∧ (∀ e ∈ (final d).dirs, e ∈ d.dirs) ∧
    (∀ e ∈ d.dirs, e ∈ (final d).dirs ∨ ∀ f ∈ e.2, ∀ t, Place e.1 f.1 t → ∃ c, f.2 = some c ∧ (t, c) ∈ (final d).files) ∧
    ∀ x ∈ (final d).files, x ∈ d.files ∨ ∃ e ∈ d.dirs, e ∉ (final d).dirs ∧ ∃ f ∈ e.2, f.2 = some x.2 ∧ Place e.1 f.1 x.1 := by
  obtain ⟨h1, h2, h3, h4, h5⟩ := last_whole (d.dirs.map (·.1)) d hp hr hf (fun n hn => hn) (List.nodup_append.mp hp.names).2.1
  refine ⟨h1, h2, h3, fun e he => ?_, fun x hx => ?_⟩
  · rcases h4 e he with h | h
    · exact Or.inl h
    · refine Or.inr fun f hfe t ht => ?_
      rw [place_iff] at ht
      subst ht
      exact h f hfe
  · rcases h5 x hx with h | ⟨e, he, hno, f, hfe, hc, ht⟩
    · exact Or.inl h
    · exact Or.inr ⟨e, he, hno, f, hfe, hc, (place_iff _ _ _).mpr ht⟩

/-! ## Folders that are skipped -/

theorem blocked_plan {d : Disk C} {n : Name} {es : List (Name × Option C)} (h : d.Blocked n es) : plan d n es = none := by
  cases hpl : plan d n es with
  | none => rfl
  | some ops =>
    exfalso
    have hs := plan_some hpl
    rcases h with ⟨f, hf, h⟩ | ⟨f, hf, hne, t, ht, hmem⟩
    · have := hs f hf
      rcases h with h | h
      · rw [h] at this; exact absurd this.1 (by simp)
      · obtain ⟨y, x, h1, h2⟩ := (endsSds_iff _).mp this.2
        exact h y x h1 h2
    · unfold plan at hpl
      split at hpl
      · cases hpl
      simp only at hpl
      split at hpl
      · cases hpl
      split at hpl
      · cases hpl
      · rename_i hh
        apply hh
        rw [List.any_eq_true]
        rw [place_iff] at ht
        have hne' : f.1 ≠ rootName := hne
        refine ⟨f.1, List.mem_filter.mpr ⟨List.mem_map_of_mem hf, by simpa using hne'⟩, ?_⟩
        unfold Disk.has
        rw [Bool.or_eq_true, decide_eq_true_eq]
        left
        rw [show stem n ++ '!' :: f.1 = t by rw [ht]; simp [place, hne']]
        exact hmem

theorem blocked_done {d : Disk C} {n : Name} {es : List (Name × Option C)} {ops : List Op} {fs : List (Name × C)} {a b : List (Name × List (Name × Option C))}
    {cs : List (Name × C)} (s : Step d n es ops fs a b cs) {m : Name} {ms : List (Name × Option C)} (h : d.Blocked m ms) : (done fs a b n cs).Blocked m ms := by
  rcases h with h | ⟨f, hf, hne, t, ht, hmem⟩
  · exact Or.inl h
  · refine Or.inr ⟨f, hf, hne, t, ht, ?_⟩
    obtain ⟨x, hx, rfl⟩ := List.mem_map.mp hmem
    exact List.mem_map_of_mem (f := fun x : Name × C => x.1) ((done_files fs a b n cs x.1 x.2).mpr (Or.inl (s.files ▸ hx)))

theorem last_blocked (ns : List Name) (d : Disk C) (hp : d.Proper) (hr : d.RootFree) (hf : d.RootNoFolder) (hns : ∀ n ∈ ns, n ∈ d.dirs.map (·.1)) (hnd : ns.Nodup)
    {m : Name} {ms : List (Name × Option C)} (hm : (m, ms) ∈ d.dirs) (hb : d.Blocked m ms) : (m, ms) ∈ (last ns d).dirs := by
  induction ns generalizing d with
  | nil => simpa [last, trace] using hm
  | cons n ns ih =>
    obtain ⟨es, he, h⟩ := trace_cons (ns := ns) hp (hns n List.mem_cons_self)
    have hnd' := List.nodup_cons.mp hnd
    rcases h with ⟨_, ht⟩ | ⟨ops, hpl, h⟩
    · rw [last_skip ht]
      exact ih d hp hr hf (fun m hm => hns m (List.mem_cons_of_mem _ hm)) hnd'.2 hm hb
    · obtain ⟨fs, a, b, cs, s⟩ := step hp he hpl
      obtain ⟨h1, h2, h3, h4⟩ := s.finish (rootFree_at s hr)
      have hrun := h3 (rootNoFolder_at s hf)
      rcases h with ⟨hno, ht⟩ | ⟨d', hd', ht⟩
      · rw [hrun] at hno; cases hno
      · have hdd := h2 d' hd'
        subst hdd
        rw [last_step hd' ht]
        refine ih _ (s.proper hp (rootFree_at s hr) (rootNoFolder_at s hf)) (rootFree_done s hr) (rootNoFolder_done s hf)
          (fun m hm => still_dirs s (hns m (List.mem_cons_of_mem _ hm)) (fun hh => hnd'.1 (hh ▸ hm))) hnd'.2 ?_ (blocked_done s hb)
        rcases (s.dir_mem (m, ms)).mp hm with h | h
        · exact h
        · rw [Prod.mk.injEq] at h
          obtain ⟨rfl, rfl⟩ := h
          rw [blocked_plan hb] at hpl
          cases hpl

/-- **A folder with something that is not an .sds file, or one of whose names is taken in the root folder, is left as it is.**
Hypotheses as in `whole_or_nothing_partial`.  rt_sds.py:389-391, 433-488. -/
theorem skipped_partial (d : Disk C) (hp : d.Proper) (hr : d.RootFree) (hf : d.RootNoFolder) (e : Name × List (Name × Option C)) (he : e ∈ d.dirs) (hb : d.Blocked e.1 e.2) :
    e ∈ (final d).dirs :=
  last_blocked _ d hp hr hf (fun n hn => hn) (List.nodup_append.mp hp.names).2.1 he hb

theorem place_ne_temp (n f : Name) : tempName ≠ place n f := by
  intro h1
  unfold place at h1
  split at h1
  · have := congrArg List.getLast? h1
    rw [List.getLast?_append, show List.getLast? sdsExt = some 's' by decide, Option.some_or] at this
    exact absurd this (by decide)
  · exact bang_ne_temp _ _ h1.symm

theorem plan_none {d : Disk C} {n : Name} {es : List (Name × Option C)} (h : plan d n es = none) :
    (∃ f ∈ es, f.2 = none ∨ endsSds f.1 = false) ∨ (rootName ∈ es.map (·.1) ∧ d.has tempName = true) ∨
    ∃ f ∈ es, f.1 ≠ rootName ∧ d.has (place n f.1) = true := by
  unfold plan at h
  split at h
  · rename_i hany
    obtain ⟨f, hf, hh⟩ := List.any_eq_true.mp hany
    left
    refine ⟨f, hf, ?_⟩
    cases h2 : f.2 <;> cases h3 : endsSds f.1 <;> simp_all
  · simp only at h
    split at h
    · rename_i hh
      right; left
      simpa using hh
    · split at h
      · rename_i hh
        obtain ⟨f, hf, hh⟩ := List.any_eq_true.mp hh
        obtain ⟨h1, h2⟩ := List.mem_filter.mp hf
        obtain ⟨g, hg, rfl⟩ := List.mem_map.mp h1
        have hne : g.1 ≠ rootName := by simpa using h2
        right; right
        exact ⟨g, hg, hne, by simpa [place, hne] using hh⟩
      · cases h

theorem last_stays (ns : List Name) (d : Disk C) (hp : d.Proper) (hr : d.RootFree) (hf : d.RootNoFolder) (hns : ∀ n ∈ ns, n ∈ d.dirs.map (·.1)) (hnd : ns.Nodup)
    {m : Name} {ms : List (Name × Option C)} (hm : m ∈ ns) (hs : (m, ms) ∈ (last ns d).dirs) :
    (∃ f ∈ ms, f.2 = none ∨ endsSds f.1 = false) ∨ (rootName ∈ ms.map (·.1) ∧ d.has tempName = true) ∨
    ∃ f ∈ ms, f.1 ≠ rootName ∧ (place m f.1 ∈ (last ns d).files.map (·.1) ∨ place m f.1 ∈ d.dirs.map (·.1)) := by
  induction ns generalizing d with
  | nil => cases hm
  | cons n ns ih =>
    obtain ⟨es, he, h⟩ := trace_cons (ns := ns) hp (hns n List.mem_cons_self)
    have hnd' := List.nodup_cons.mp hnd
    have hns' : ∀ m ∈ ns, m ∈ d.dirs.map (·.1) := fun m hm => hns m (List.mem_cons_of_mem _ hm)
    rcases h with ⟨hno, ht⟩ | ⟨ops, hpl, h⟩
    · rw [last_skip ht] at hs ⊢
      rcases List.mem_cons.mp hm with rfl | hm
      · have hw := last_whole ns d hp hr hf hns' hnd'.2
        have hin := hw.2.2.1 _ hs
        have heq : (m, ms) = (m, es) := List.inj_on_of_nodup_map (List.nodup_append.mp hp.names).2.1 hin he rfl
        rw [Prod.mk.injEq] at heq
        obtain ⟨_, rfl⟩ := heq
        rcases plan_none hno with h | h | ⟨f, hf', hne, h⟩
        · exact Or.inl h
        · exact Or.inr (Or.inl h)
        · refine Or.inr (Or.inr ⟨f, hf', hne, ?_⟩)
          unfold Disk.has at h
          rw [Bool.or_eq_true, decide_eq_true_eq, decide_eq_true_eq] at h
          rcases h with h | h
          · left
            obtain ⟨x, hx, hxe⟩ := List.mem_map.mp h
            exact hxe ▸ List.mem_map_of_mem (hw.2.1 x hx)
          · exact Or.inr h
      · exact ih d hp hr hf hns' hnd'.2 hm hs
    · obtain ⟨fs, a, b, cs, s⟩ := step hp he hpl
      obtain ⟨h1, h2, h3, h4⟩ := s.finish (rootFree_at s hr)
      have hrun := h3 (rootNoFolder_at s hf)
      rcases h with ⟨hno, ht⟩ | ⟨d', hd', ht⟩
      · rw [hrun] at hno; cases hno
      · have hdd := h2 d' hd'
        subst hdd
        rw [last_step hd' ht] at hs ⊢
        have hpr := s.proper hp (rootFree_at s hr) (rootNoFolder_at s hf)
        have hns2 : ∀ m ∈ ns, m ∈ (done fs a b n cs).dirs.map (·.1) := fun m hm => still_dirs s (hns' m hm) (fun hh => hnd'.1 (hh ▸ hm))
        have hdirs : ∀ t, t ∈ (done fs a b n cs).dirs.map (·.1) → t ∈ d.dirs.map (·.1) := by
          intro t ht
          obtain ⟨e, he', rfl⟩ := List.mem_map.mp ht
          exact List.mem_map_of_mem ((s.dir_mem e).mpr (Or.inl he'))
        rcases List.mem_cons.mp hm with rfl | hm
        · exfalso
          have := (last_whole ns _ hpr (rootFree_done s hr) (rootNoFolder_done s hf) hns2 hnd'.2).2.2.1 _ hs
          rcases List.mem_append.mp this with h' | h'
          · exact s.ha _ h' rfl
          · exact s.hb _ h' rfl
        · rcases ih _ hpr (rootFree_done s hr) (rootNoFolder_done s hf) hns2 hnd'.2 hm hs with h | ⟨h, h'⟩ | ⟨f, hf', hne, h⟩
          · exact Or.inl h
          · refine Or.inr (Or.inl ⟨h, ?_⟩)
            unfold Disk.has at h' ⊢
            rw [Bool.or_eq_true, decide_eq_true_eq, decide_eq_true_eq] at h' ⊢
            rcases h' with h' | h'
            · left
              rcases done_names h' with h' | ⟨f, _, hf'⟩
              · rw [s.files]; exact h'
              · exact absurd hf' (place_ne_temp _ _)
            · exact Or.inr (hdirs _ h')
          · refine Or.inr (Or.inr ⟨f, hf', hne, h.imp id (hdirs _)⟩)

/-- **A folder is skipped only if** it has something that is not an .sds file, or a `_root.sds` and a temporary file is left over, or the name of one of its files is taken
in the main folder (by a file, at the end of the run at the latest, or a folder).  Hypotheses as in `whole_or_nothing_partial`.  rt_sds.py:389-391, 433-488. -/
theorem skipped_only_partial (d : Disk C) (hp : d.Proper) (hr : d.RootFree) (hf : d.RootNoFolder) (e : Name × List (Name × Option C)) (he : e ∈ (final d).dirs) :
    (∃ f ∈ e.2, f.2 = none ∨ ∀ y x : Name, f.1 = y ++ x → x.map Char.toLower ≠ ".sds".toList) ∨
    ("_root.sds".toList ∈ e.2.map (·.1) ∧ "_root.sds_temp".toList ∈ d.files.map (·.1) ++ d.dirs.map (·.1)) ∨
    ∃ f ∈ e.2, f.1 ≠ "_root.sds".toList ∧ ∃ t, Place e.1 f.1 t ∧ t ∈ (final d).files.map (·.1) ++ d.dirs.map (·.1) := by
  have hn := (List.nodup_append.mp hp.names).2.1
  have hin := (last_whole _ d hp hr hf (fun n hn => hn) hn).2.2.1 e he
  rcases last_stays _ d hp hr hf (fun n hn => hn) hn (List.mem_map_of_mem hin) he with ⟨f, hf', h⟩ | ⟨h, h'⟩ | ⟨f, hf', hne, h⟩
  · refine Or.inl ⟨f, hf', h.imp id fun hh y x hyx hx => ?_⟩
    rw [(endsSds_iff f.1).mpr ⟨y, x, hyx, hx⟩] at hh
    cases hh
  · refine Or.inr (Or.inl ⟨h, ?_⟩)
    unfold Disk.has at h'
    rw [Bool.or_eq_true, decide_eq_true_eq, decide_eq_true_eq] at h'
    exact List.mem_append.mpr h'
  · exact Or.inr (Or.inr ⟨f, hf', hne, _, (place_iff _ _ _).mpr rfl, List.mem_append.mpr h⟩)

/-! ## Everything is flattened -/

theorem free_rootFree {d : Disk C} (h : d.Free) : d.RootFree := by
  intro e he hroot t ht
  obtain ⟨f, hf, hfr⟩ := List.mem_map.mp hroot
  refine ⟨(h.free e he f hf t (hfr ▸ ht)).1, fun g hg f' hf' hp => ?_⟩
  exact h.apart g hg f' hf' e he f hf t hp (hfr ▸ ht)

/-- Free for folders, and no folder inside its own place. -/
theorem free_noFolder {d : Disk C} (h : d.Free) : d.RootNoFolder := by
  intro e he hroot t ht g hg htg
  obtain ⟨f, hf, hfr⟩ := List.mem_map.mp hroot
  exact ((h.free e he f hf t (hfr ▸ ht)).2 g hg htg).1

theorem plan_of_free {d : Disk C} (h : d.Free) (hs : d.OnlySds) {n : Name} {es : List (Name × Option C)} (he : (n, es) ∈ d.dirs) : ∃ ops, plan d n es = some ops := by
  unfold plan
  rw [if_neg]
  · have ht : d.has tempName = false := by
      unfold Disk.has
      rw [Bool.or_eq_false_iff, decide_eq_false_iff_not, decide_eq_false_iff_not]
      exact h.temp
    simp only [ht, Bool.and_false, Bool.false_eq_true, if_false]
    rw [if_neg]
    · exact ⟨_, rfl⟩
    · rw [List.any_eq_true]
      rintro ⟨f, hf, hh⟩
      obtain ⟨hf1, hf2⟩ := List.mem_filter.mp hf
      have hne : f ≠ rootName := by simpa using hf2
      obtain ⟨g, hg, rfl⟩ := List.mem_map.mp hf1
      have hpl : Place n g.1 (stem n ++ '!' :: g.1) := (place_iff _ _ _).mpr (by simp [place, hne])
      have := h.free _ he g hg _ hpl
      unfold Disk.has at hh
      rw [Bool.or_eq_true, decide_eq_true_eq, decide_eq_true_eq] at hh
      rcases hh with hh | hh
      · exact this.1 hh
      · obtain ⟨k, hk, hke⟩ := List.mem_map.mp hh
        exact hne (this.2 k hk hke.symm).2
  · rw [List.any_eq_true]
    rintro ⟨f, hf, hh⟩
    have := hs _ he f hf
    rw [← endsSds_iff] at this
    rw [this.2] at hh
    cases h3 : f.2 <;> simp_all

theorem free_done {d : Disk C} {n : Name} {es : List (Name × Option C)} {ops : List Op} {fs : List (Name × C)} {a b : List (Name × List (Name × Option C))}
    {cs : List (Name × C)} (s : Step d n es ops fs a b cs) (h : d.Free) : (done fs a b n cs).Free := by
  refine ⟨⟨?_, ?_⟩, ?_, ?_⟩
  · intro hm
    rcases done_names hm with h1 | ⟨f, _, h1⟩
    · exact h.temp.1 (s.files ▸ h1)
    · exact place_ne_temp _ _ h1
  · intro hm
    obtain ⟨e, he, hh⟩ := List.mem_map.mp hm
    exact h.temp.2 (hh ▸ List.mem_map_of_mem ((s.dir_mem e).mpr (Or.inl he)))
  · intro e he f hf t ht
    have hed := (s.dir_mem e).mpr (Or.inl he)
    have hne : e.1 ≠ n := by
      rcases List.mem_append.mp he with h | h
      · exact s.ha e h
      · exact s.hb e h
    have := h.free e hed f hf t ht
    refine ⟨fun hm => ?_, fun g hg => this.2 g ((s.dir_mem g).mpr (Or.inl hg))⟩
    rcases done_names hm with h1 | ⟨f', hf', h1⟩
    · exact this.1 (s.files ▸ h1)
    · exact hne (h.apart e hed f hf (n, es) ((s.dir_mem _).mpr (Or.inr rfl)) (f'.1, some f'.2) (s.entry hf') t ht ((place_iff _ _ _).mpr h1))
  · intro e he f hf e' he' f' hf'
    exact h.apart e ((s.dir_mem e).mpr (Or.inl he)) f hf e' ((s.dir_mem e').mpr (Or.inl he')) f' hf'

theorem last_free (ns : List Name) (d : Disk C) (hp : d.Proper) (hf : d.Free) (hs : d.OnlySds) (hns : ∀ n ∈ ns, n ∈ d.dirs.map (·.1)) (hnd : ns.Nodup) :
    ∀ e ∈ (last ns d).dirs, e.1 ∉ ns := by
  induction ns generalizing d with
  | nil => intro e _ h; cases h
  | cons n ns ih =>
    obtain ⟨es, he, h⟩ := trace_cons (ns := ns) hp (hns n List.mem_cons_self)
    have hnd' := List.nodup_cons.mp hnd
    obtain ⟨ops', hops⟩ := plan_of_free hf hs he
    rcases h with ⟨hno, _⟩ | ⟨ops, hpl, h⟩
    · rw [hno] at hops; cases hops
    · obtain ⟨fs, a, b, cs, s⟩ := step hp he hpl
      have hr := free_rootFree hf
      have hnf := free_noFolder hf
      obtain ⟨h1, h2, h3, h4⟩ := s.finish (rootFree_at s hr)
      have hrun := h3 (rootNoFolder_at s hnf)
      rcases h with ⟨hno, ht⟩ | ⟨d', hd', ht⟩
      · rw [hrun] at hno; cases hno
      · have hdd := h2 d' hd'
        subst hdd
        rw [last_step hd' ht]
        have hpr := s.proper hp (rootFree_at s hr) (rootNoFolder_at s hnf)
        have hns' : ∀ m ∈ ns, m ∈ (done fs a b n cs).dirs.map (·.1) := fun m hm => still_dirs s (hns m (List.mem_cons_of_mem _ hm)) (fun hh => hnd'.1 (hh ▸ hm))
        have hsd : (done fs a b n cs).OnlySds := fun e he' => hs e ((s.dir_mem e).mpr (Or.inl he'))
        intro e he' hmem
        rcases List.mem_cons.mp hmem with h | h
        · have := (last_whole ns _ hpr (rootFree_done s hr) (rootNoFolder_done s hnf) hns' hnd'.2).2.2.1 e he'
          rcases List.mem_append.mp this with h' | h'
          · exact s.ha e h' h
          · exact s.hb e h' h
        · exact ih _ hpr (free_done s hf) hsd hns' hnd'.2 e he' h

/-- **Folders of .sds files whose places are free are flattened completely, each file to the documented place, and no other file changes.**
`sds_flatten`, rt_sds.py:368-504. -/
theorem all_flat (d : Disk C) (hp : d.Proper) (hf : d.Free) (hs : d.OnlySds) :
    (final d).dirs = [] ∧ ((final d).files.map (·.1)).Nodup ∧ ∀ t c, (t, c) ∈ (final d).files ↔ d.Flat t c := by
  have hw := whole_or_nothing_partial d hp (free_rootFree hf) (free_noFolder hf)
  have hl := last_free (d.dirs.map (·.1)) d hp hf hs (fun n hn => hn) (List.nodup_append.mp hp.names).2.1
  have hnil : (final d).dirs = [] := by
    apply List.eq_nil_iff_forall_not_mem.mpr
    intro e he
    exact hl e he (List.mem_map_of_mem (hw.2.2.1 e he))
  refine ⟨hnil, (List.nodup_append.mp hw.1.names).1, fun t c => ⟨fun h => ?_, fun h => ?_⟩⟩
  · rcases hw.2.2.2.2 _ h with h | ⟨e, he, _, f, hfe, hc, hpl⟩
    · exact Or.inl h
    · exact Or.inr ⟨e, he, f, hfe, hc, hpl⟩
  · rcases h with h | ⟨e, he, f, hfe, hc, hpl⟩
    · exact hw.2.1 _ h
    · rcases hw.2.2.2.1 e he with h | h
      · rw [hnil] at h; cases h
      · obtain ⟨c', hc', hin⟩ := h f hfe t hpl
        rw [hc] at hc'
        rw [Option.some.inj hc']
        exact hin

end Verif.Flatten
