import Verif.Flatten.Result
/-!
# Flattening a folder of .sds files: again after an interruption

Where no folder has a `_root.sds`, a second run after an interruption leaves what one run would have left.
-/
namespace Verif.Flatten
open Verif.Items (Name)
open Verif.Sds (endsSds sdsExt)

variable {C : Type}

/-- What stays the same on the way. -/
structure Same (d x : Disk C) : Prop where
  proper : x.Proper
  free : x.Free
  only : x.OnlySds
  noRoot : x.NoRoot
  flat : ∀ t c, x.Flat t c ↔ d.Flat t c

theorem Same.trans {d x y : Disk C} (h : Same d x) (h' : Same x y) : Same d y :=
  ⟨h'.proper, h'.free, h'.only, h'.noRoot, fun t c => (h'.flat t c).trans (h.flat t c)⟩

theorem noRoot_roots {cs : List (Name × C)} (h : rootName ∉ cs.map (·.1)) : roots cs = [] := by
  unfold roots
  apply List.filter_eq_nil_iff.mpr
  intro y hy
  have : y.1 ≠ rootName := fun h2 => h (h2 ▸ List.mem_map_of_mem hy)
  simpa using this

theorem noRoot_order {cs : List (Name × C)} (h : rootName ∉ cs.map (·.1)) : inOrder cs = cs := by
  unfold inOrder
  have h1 := noRoot_roots h
  unfold roots at h1
  rw [h1, List.nil_append]
  apply List.filter_eq_self.mpr
  intro y hy
  have : y.1 ≠ rootName := fun h2 => h (h2 ▸ List.mem_map_of_mem hy)
  simpa using this

theorem without_mem (cs : List (Name × C)) (ks : List Name) (y : Name × C) : y ∈ without cs ks ↔ y ∈ cs ∧ y.1 ∉ ks := by
  unfold without; rw [List.mem_filter]; simp

/-- A disk on which some of the files of a folder have been moved. -/
theorem same_part {fs : List (Name × C)} {a b : List (Name × List (Name × Option C))} {n : Name} {cs done' : List (Name × C)}
    (hp : (at' fs a b n cs).Proper) (hf : (at' fs a b n cs).Free) (hs : (at' fs a b n cs).OnlySds) (hr : (at' fs a b n cs).NoRoot)
    (hsub : ∀ y ∈ done', y ∈ cs) (hnd : (done'.map (·.1)).Nodup) (x : Disk C)
    (hfiles : x.files = fs ++ done'.map (fun y => (place n y.1, y.2)))
    (hdirs : x.dirs = a ++ (n, ents (without cs (done'.map (·.1)))) :: b ∨ (x.dirs = a ++ b ∧ ∀ y ∈ cs, y.1 ∈ done'.map (·.1))) :
    Same (at' fs a b n cs) x := by
  have hin : (n, ents cs) ∈ (at' fs a b n cs).dirs := by unfold at'; simp
  have hcsn : (cs.map (·.1)).Nodup := by have := hp.entries _ hin; rwa [ents_names] at this
  have hent : ∀ y ∈ cs, (y.1, some y.2) ∈ ents cs := fun y hy => List.mem_map.mpr ⟨y, hy, rfl⟩
  -- where the folders of x come from
  have hdm : ∀ e ∈ x.dirs, ∃ e' ∈ (at' fs a b n cs).dirs, e'.1 = e.1 ∧ (∀ f ∈ e.2, f ∈ e'.2) ∧ (e.1 = n → ∀ f ∈ e.2, f.1 ∉ done'.map (·.1)) ∧ e.2.Sublist e'.2 := by
    intro e he
    have hab : e ∈ a ∨ e ∈ b → e.1 ≠ n := by
      have hnn := (List.nodup_append.mp hp.names).2.1
      unfold at' at hnn
      rw [at_dirs_names] at hnn
      have h2 := List.nodup_append.mp hnn
      rintro (h | h) heq
      · exact h2.2.2 e.1 (List.mem_map_of_mem h) n List.mem_cons_self heq
      · exact (List.nodup_cons.mp h2.2.1).1 (heq ▸ List.mem_map_of_mem h)
    have hother : e ∈ a ∨ e ∈ b → ∃ e' ∈ (at' fs a b n cs).dirs, e'.1 = e.1 ∧ (∀ f ∈ e.2, f ∈ e'.2) ∧ (e.1 = n → ∀ f ∈ e.2, f.1 ∉ done'.map (·.1)) ∧ e.2.Sublist e'.2 := by
      intro h
      refine ⟨e, ?_, rfl, fun f hf => hf, fun heq => absurd heq (hab h), List.Sublist.refl _⟩
      unfold at'
      rcases h with h | h
      · exact List.mem_append_left _ h
      · exact List.mem_append_right _ (List.mem_cons_of_mem _ h)
    rcases hdirs with hd | ⟨hd, _⟩
    · rw [hd] at he
      rcases List.mem_append.mp he with h | h
      · exact hother (Or.inl h)
      · rcases List.mem_cons.mp h with rfl | h
        · refine ⟨(n, ents cs), hin, rfl, ?_, ?_, ?_⟩
          · intro f hf
            obtain ⟨y, hy, rfl⟩ := List.mem_map.mp hf
            exact hent y ((without_mem _ _ _).mp hy).1
          · intro _ f hf
            obtain ⟨y, hy, rfl⟩ := List.mem_map.mp hf
            exact ((without_mem _ _ _).mp hy).2
          · exact List.Sublist.map _ List.filter_sublist
        · exact hother (Or.inr h)
    · rw [hd] at he
      exact hother (List.mem_append.mp he)
  have hnames : (x.dirs.map (·.1)).Sublist ((at' fs a b n cs).dirs.map (·.1)) := by
    unfold at'
    rw [at_dirs_names]
    rcases hdirs with hd | ⟨hd, _⟩
    · rw [hd, at_dirs_names]
    · rw [hd, List.map_append]
      exact List.Sublist.append_left (List.sublist_cons_self _ _) _
  have hfm : ∀ t, t ∈ x.files.map (·.1) → t ∈ fs.map (·.1) ∨ ∃ y ∈ done', t = place n y.1 := by
    intro t ht
    rw [hfiles, List.map_append, List.map_map] at ht
    rcases List.mem_append.mp ht with h | h
    · exact Or.inl h
    · obtain ⟨y, hy, rfl⟩ := List.mem_map.mp h
      exact Or.inr ⟨y, hy, rfl⟩
  have hpn := List.nodup_append.mp hp.names
  have hfree : ∀ y ∈ done', place n y.1 ∉ fs.map (·.1) ∧ ∀ g ∈ (at' fs a b n cs).dirs, place n y.1 ≠ g.1 := by
    intro y hy
    have := hf.free _ hin (y.1, some y.2) (hent y (hsub y hy)) _ ((place_iff _ _ _).mpr rfl)
    refine ⟨this.1, fun g hg heq => ?_⟩
    have h2 := (this.2 g hg heq).2
    refine hr _ hin ?_
    rw [ents_names, ← h2]
    exact List.mem_map_of_mem (f := fun x : Name × C => x.1) (hsub y hy)
  refine ⟨⟨?_, ?_⟩, ⟨⟨?_, ?_⟩, ?_, ?_⟩, ?_, ?_, ?_⟩
  · refine List.nodup_append.mpr ⟨?_, hpn.2.1.sublist hnames, ?_⟩
    · rw [hfiles, List.map_append]
      refine List.nodup_append.mpr ⟨hpn.1, ?_, ?_⟩
      · have : (done'.map fun y => (place n y.1, y.2)).map (·.1) = (done'.map (·.1)).map (place n) := by simp [List.map_map, Function.comp_def]
        rw [this]
        exact hnd.map fun _ _ h => place_inj h
      · intro u hu v hv huv
        rw [List.map_map] at hv
        obtain ⟨y, hy, rfl⟩ := List.mem_map.mp hv
        have huv' : u = place n y.1 := huv
        exact (hfree y hy).1 (huv' ▸ hu)
    · intro u hu v hv huv
      rcases hfm u hu with h | ⟨y, hy, rfl⟩
      · exact hpn.2.2 u h v (hnames.subset hv) huv
      · obtain ⟨g, hg, hge⟩ := List.mem_map.mp (hnames.subset hv)
        exact (hfree y hy).2 g hg (huv.trans hge.symm)
  · intro e he
    obtain ⟨e', he', _, _, _, hsl⟩ := hdm e he
    exact (hp.entries e' he').sublist (List.Sublist.map _ hsl)
  · intro hm
    rcases hfm _ hm with h | ⟨y, hy, h⟩
    · exact hf.temp.1 h
    · have hne : y.1 ≠ rootName := by
        intro h2
        refine hr _ hin ?_
        rw [ents_names, show "_root.sds".toList = y.1 from h2.symm]
        exact List.mem_map_of_mem (f := fun x : Name × C => x.1) (hsub y hy)
      rw [show place n y.1 = stem n ++ '!' :: y.1 by simp [place, hne]] at h
      exact bang_ne_temp _ _ h.symm
  · intro hm
    exact hf.temp.2 (hnames.subset hm)
  · intro e he f hfe t ht
    obtain ⟨e', he', h1, h2, h3, _⟩ := hdm e he
    rw [← h1] at ht
    have := hf.free e' he' f (h2 f hfe) t ht
    refine ⟨fun hm => ?_, fun g hg hge => ?_⟩
    · rcases hfm t hm with h | ⟨y, hy, h⟩
      · exact this.1 h
      · have hy' := hsub y hy
        have hen := hf.apart e' he' f (h2 f hfe) (n, ents cs) hin (y.1, some y.2) (hent y hy') t ht ((place_iff _ _ _).mpr h)
        simp only at hen
        rw [place_iff, hen, h] at ht
        have hfy := place_inj ht
        exact h3 (h1.symm.trans hen) f hfe (hfy ▸ List.mem_map_of_mem hy)
    · obtain ⟨g', hg', k1, _⟩ := hdm g hg
      have := this.2 g' hg' (hge.trans k1.symm)
      exact ⟨k1.symm.trans (this.1.trans h1), this.2⟩
  · intro e he f hfe e2 he2 f2 hfe2 t ht ht2
    obtain ⟨e', he', h1, h2, _⟩ := hdm e he
    obtain ⟨e2', he2', k1, k2, _⟩ := hdm e2 he2
    rw [← h1, ← k1]
    exact hf.apart e' he' f (h2 f hfe) e2' he2' f2 (k2 f2 hfe2) t (h1 ▸ ht) (k1 ▸ ht2)
  · intro e he f hfe
    obtain ⟨e', he', _, h2, _⟩ := hdm e he
    exact hs e' he' f (h2 f hfe)
  · intro e he hm
    obtain ⟨e', he', _, h2, _⟩ := hdm e he
    obtain ⟨f, hfe, hfr⟩ := List.mem_map.mp hm
    exact hr e' he' (hfr ▸ List.mem_map_of_mem (h2 f hfe))
  · intro t c
    unfold Disk.Flat
    constructor
    · rintro (h | ⟨e, he, f, hfe, hc, hpl⟩)
      · rw [hfiles] at h
        rcases List.mem_append.mp h with h | h
        · exact Or.inl h
        · obtain ⟨y, hy, heq⟩ := List.mem_map.mp h
          injection heq with e1 e2
          exact Or.inr ⟨_, hin, (y.1, some y.2), hent y (hsub y hy), by simp [e2], (place_iff _ _ _).mpr e1.symm⟩
      · obtain ⟨e', he', h1, h2, _⟩ := hdm e he
        exact Or.inr ⟨e', he', f, h2 f hfe, hc, h1 ▸ hpl⟩
    · rintro (h | ⟨e, he, f, hfe, hc, hpl⟩)
      · left
        rw [hfiles]
        exact List.mem_append_left _ h
      · have hsplit : e ∈ a ∨ e ∈ b ∨ e = (n, ents cs) := by
          unfold at' at he
          rcases List.mem_append.mp he with h | h
          · exact Or.inl h
          · rcases List.mem_cons.mp h with h | h
            · exact Or.inr (Or.inr h)
            · exact Or.inr (Or.inl h)
        have hkeep : e ∈ a ∨ e ∈ b → e ∈ x.dirs := by
          intro h
          rcases hdirs with hd | ⟨hd, _⟩
          · rw [hd]
            rcases h with h | h
            · exact List.mem_append_left _ h
            · exact List.mem_append_right _ (List.mem_cons_of_mem _ h)
          · rw [hd]; exact List.mem_append.mpr h
        rcases hsplit with h | h | rfl
        · exact Or.inr ⟨e, hkeep (Or.inl h), f, hfe, hc, hpl⟩
        · exact Or.inr ⟨e, hkeep (Or.inr h), f, hfe, hc, hpl⟩
        · obtain ⟨y, hy, rfl⟩ := List.mem_map.mp hfe
          have hyc : y.2 = c := Option.some.inj hc
          by_cases hd' : y.1 ∈ done'.map (·.1)
          · left
            obtain ⟨z, hz, hzy⟩ := List.mem_map.mp hd'
            have hzy' : z = y := List.inj_on_of_nodup_map hcsn (hsub z hz) hy hzy
            subst hzy'
            rw [hfiles]
            refine List.mem_append_right _ (List.mem_map.mpr ⟨z, hz, ?_⟩)
            rw [place_iff] at hpl
            rw [hpl, hyc]
          · rcases hdirs with hd | ⟨_, hall⟩
            · right
              refine ⟨(n, ents (without cs (done'.map (·.1)))), by rw [hd]; simp, (y.1, some y.2), ?_, hc, hpl⟩
              exact List.mem_map.mpr ⟨y, (without_mem _ _ _).mpr ⟨hy, hd'⟩, rfl⟩
            · exact absurd (hall y hy) hd'

/-- All disks on the way. -/
theorem trace_same (ns : List Name) (d : Disk C) (hp : d.Proper) (hf : d.Free) (hs : d.OnlySds) (hr : d.NoRoot) (hns : ∀ n ∈ ns, n ∈ d.dirs.map (·.1)) (hnd : ns.Nodup) :
    ∀ x ∈ trace ns d, Same d x := by
  induction ns generalizing d with
  | nil => intro x hx; cases hx
  | cons n ns ih =>
    obtain ⟨es, he, h⟩ := trace_cons (ns := ns) hp (hns n List.mem_cons_self)
    have hnd' := List.nodup_cons.mp hnd
    rcases h with ⟨_, ht⟩ | ⟨ops, hpl, h⟩
    · rw [ht]
      exact ih d hp hf hs hr (fun m hm => hns m (List.mem_cons_of_mem _ hm)) hnd'.2
    · obtain ⟨fs, a, b, cs, s⟩ := step hp he hpl
      have hno : rootName ∉ cs.map (·.1) := by
        have := hr _ he
        simp only [s.names] at this
        exact this
      have hd := s.here
      have hpl' : ∀ l : List (Name × C), (∀ y ∈ l, y ∈ cs) → l.map (fun y => (firstPlace n y.1, y.2)) = l.map (fun y => (place n y.1, y.2)) := by
        intro l hl
        apply List.map_congr_left
        intro y hy
        have : y.1 ≠ rootName := fun h2 => hno (h2 ▸ List.mem_map_of_mem (hl y hy))
        simp [firstPlace, place, this]
      have hall : done fs a b n cs = ⟨fs ++ cs.map (fun y => (place n y.1, y.2)), a ++ b⟩ := by
        unfold done
        rw [noRoot_roots hno, List.map_nil, List.append_nil]
        have := moved_eq n cs
        rw [noRoot_order hno, noRoot_roots hno, List.map_nil, List.nil_append, hpl' cs fun y hy => hy] at this
        rw [← this]
      have hsame : Same d (done fs a b n cs) := by
        rw [hall, hd]
        rw [hd] at hp hf hs hr
        exact same_part hp hf hs hr (done' := cs) (fun y hy => hy) s.nodup _ rfl (Or.inr ⟨rfl, fun y hy => List.mem_map_of_mem hy⟩)
      have hruns : ∀ x ∈ (runOps d ops).1, Same d x := by
        intro x hx
        rw [s.run, noRoot_roots hno, noRoot_order hno] at hx
        simp only [List.map_nil, runOps, List.append_nil] at hx
        rcases List.mem_append.mp hx with hx | hx
        · obtain ⟨k, _, rfl⟩ := List.mem_map.mp hx
          rw [hd]
          rw [hd] at hp hf hs hr
          have hsub : ∀ y ∈ cs.take (k + 1), y ∈ cs := fun y hy => List.mem_of_mem_take hy
          unfold way
          rw [noRoot_order hno, hpl' _ hsub]
          refine same_part hp hf hs hr (done' := cs.take (k + 1)) hsub ?_ _ rfl (Or.inl rfl)
          exact s.nodup.sublist (List.Sublist.map _ (List.take_sublist _ _))
        · rw [List.mem_singleton] at hx
          subst hx
          have hb : fs ++ banged n cs = (done fs a b n cs).files := by
            unfold done; rw [noRoot_roots hno]; simp
          rw [hb]
          exact hsame
      rcases h with ⟨_, ht⟩ | ⟨d', hd', ht⟩
      · rw [ht]; exact hruns
      · have hdd := (s.finish (fun hh => absurd hh hno)).2.1 d' hd'
        subst hdd
        rw [ht]
        intro x hx
        rcases List.mem_append.mp hx with hx | hx
        · exact hruns x hx
        · exact hsame.trans (ih _ hsame.proper hsame.free hsame.only hsame.noRoot
            (fun m hm => still_dirs s (hns m (List.mem_cons_of_mem _ hm)) (fun hh => hnd'.1 (hh ▸ hm))) hnd'.2 x hx)

/-- **After an interruption a second run leaves the files that one run would have left**, wherever the first was interrupted, for folders without `_root.sds` whose places are free.
`sds_flatten`, rt_sds.py:368-504.  Missing: folders with `_root.sds`, see `retry_counterexample`. -/
theorem retry_partial (d : Disk C) (hp : d.Proper) (hf : d.Free) (hs : d.OnlySds) (hr : d.NoRoot) (x : Disk C) (hx : x ∈ flatten d) :
    (final x).dirs = [] ∧ (final x).files.Perm (final d).files := by
  have hall := all_flat d hp hf hs
  have hsame : Same d x := by
    rcases List.mem_cons.mp hx with rfl | h
    · exact ⟨hp, hf, hs, hr, fun _ _ => Iff.rfl⟩
    · exact trace_same _ d hp hf hs hr (fun n hn => hn) (List.nodup_append.mp hp.names).2.1 x h
  have hx' := all_flat x hsame.proper hsame.free hsame.only
  refine ⟨hx'.1, ?_⟩
  rw [List.perm_ext_iff_of_nodup (List.Nodup.of_map _ hx'.2.1) (List.Nodup.of_map _ hall.2.1)]
  rintro ⟨t, c⟩
  rw [hx'.2.2, hall.2.2, hsame.flat]

/-! ## What goes wrong -/

/-- **A file of the root folder is lost without a word**: the folder `b` has a `_root.sds`, the root folder has `b.sds`; the documentation says that a folder is skipped if there is a
name conflict.  The run ends with the content of `b.sds` gone (rt_sds.py:454, "BUG: get the final root path here", and 499). -/
theorem no_loss_counterexample : ∃ d : Disk Nat, d.Proper ∧ d.OnlySds ∧ 7 ∈ d.contents ∧ 7 ∉ (final d).contents ∧ (final d).dirs = [] := by
  refine ⟨⟨[("b.sds".toList, 7)], [("b".toList, [("_root.sds".toList, some 1), ("x.sds".toList, some 2)])]⟩, ⟨by decide, by decide⟩, ?_, by decide, by decide, by decide⟩
  intro e he f hf
  simp only [List.mem_singleton] at he
  subst he
  simp only [List.mem_cons, List.not_mem_nil, or_false] at hf
  rcases hf with rfl | rfl
  · exact ⟨rfl, "_root".toList, ".sds".toList, by decide, by decide⟩
  · exact ⟨rfl, "x".toList, ".sds".toList, by decide, by decide⟩

/-- Two folders `b` and `b.sds`, each with a `_root.sds`: the run stops in between with an exception, `b` is gone and its `_root.sds` has the temporary name; `b.sds` is not flattened. -/
theorem raise_counterexample : ∃ d : Disk Nat, d.Proper ∧ d.OnlySds ∧ d.files = [] ∧
    (final d).files = [("_root.sds_temp".toList, 1)] ∧ (final d).dirs = [("b.sds".toList, [("x.sds".toList, some 2)])] := by
  refine ⟨⟨[], [("b".toList, [("_root.sds".toList, some 1)]), ("b.sds".toList, [("x.sds".toList, some 2)])]⟩, ⟨by decide, by decide⟩, ?_, rfl, by decide, by decide⟩
  intro e he f hf
  simp only [List.mem_cons, List.not_mem_nil, or_false] at he
  rcases he with rfl | rfl
  · simp only [List.mem_singleton] at hf
    subst hf
    exact ⟨rfl, "_root".toList, ".sds".toList, by decide, by decide⟩
  · simp only [List.mem_singleton] at hf
    subst hf
    exact ⟨rfl, "x".toList, ".sds".toList, by decide, by decide⟩

theorem bare_self {n b : Name} (h : Bare n b) : b = stem n := (bare_iff n b).mp h

/-- A disk with one folder, whose places are free. -/
def oneFolder : Disk Nat := ⟨[("a.sds".toList, 7)], [("b".toList, [("_root.sds".toList, some 1), ("x.sds".toList, some 2)])]⟩

theorem oneFolder_ok : oneFolder.Proper ∧ oneFolder.Free ∧ oneFolder.OnlySds := by
  refine ⟨⟨by decide, by decide⟩, ⟨by decide, ?_, ?_⟩, ?_⟩
  · intro e he f hf t ht
    rw [place_iff] at ht
    simp only [oneFolder, List.mem_singleton] at he
    subst he
    simp only [List.mem_cons, List.not_mem_nil, or_false] at hf
    rcases hf with rfl | rfl <;> subst ht <;> decide
  · intro e he f _ e' he' f' _ t _ _
    simp only [oneFolder, List.mem_singleton] at he he'
    rw [he, he']
  · intro e he f hf
    simp only [oneFolder, List.mem_singleton] at he
    subst he
    simp only [List.mem_cons, List.not_mem_nil, or_false] at hf
    rcases hf with rfl | rfl
    · exact ⟨rfl, "_root".toList, ".sds".toList, by decide, by decide⟩
    · exact ⟨rfl, "x".toList, ".sds".toList, by decide, by decide⟩

/-- **After an interruption between the first two operations no further run finishes the work**: the file `_root.sds_temp` left over is not renamed, in this disk nor by any number of
further runs, and `b!_root.sds` or `b.sds` never appears. -/
theorem retry_counterexample : ∃ d x : Disk Nat, d.Proper ∧ d.Free ∧ d.OnlySds ∧ x ∈ flatten d ∧
    ("b.sds".toList, 1) ∈ (final d).files ∧ ∀ k : Nat, ("_root.sds_temp".toList, 1) ∈ (final^[k] x).files ∧ "b.sds".toList ∉ (final^[k] x).files.map (·.1) := by
  refine ⟨oneFolder, ⟨[("a.sds".toList, 7), ("_root.sds_temp".toList, 1)], [("b".toList, [("x.sds".toList, some 2)])]⟩, oneFolder_ok.1, oneFolder_ok.2.1, oneFolder_ok.2.2, ?_, by decide, ?_⟩
  · unfold flatten
    refine List.mem_cons_of_mem _ ?_
    have : (trace (oneFolder.dirs.map (·.1)) oneFolder)[0]? = some ⟨[("a.sds".toList, 7), ("_root.sds_temp".toList, 1)], [("b".toList, [("x.sds".toList, some 2)])]⟩ := by rfl
    exact List.mem_of_getElem? this
  · intro k
    cases k with
    | zero => decide
    | succ k =>
      rw [Function.iterate_succ_apply]
      have h1 : final (⟨[("a.sds".toList, 7), ("_root.sds_temp".toList, 1)], [("b".toList, [("x.sds".toList, some 2)])]⟩ : Disk Nat) =
          ⟨[("a.sds".toList, 7), ("_root.sds_temp".toList, 1), ("b!x.sds".toList, 2)], []⟩ := by rfl
      have h2 : final (⟨[("a.sds".toList, 7), ("_root.sds_temp".toList, 1), ("b!x.sds".toList, 2)], []⟩ : Disk Nat) =
          ⟨[("a.sds".toList, 7), ("_root.sds_temp".toList, 1), ("b!x.sds".toList, 2)], []⟩ := by rfl
      rw [h1, Function.iterate_fixed h2]
      decide

/-! ## Examples -/

example : (final oneFolder).dirs = [] ∧ (final oneFolder).files = [("a.sds".toList, 7), ("b!x.sds".toList, 2), ("b.sds".toList, 1)] := by decide
example : oneFolder.RootFree ∧ oneFolder.RootNoFolder := ⟨free_rootFree oneFolder_ok.2.1, free_noFolder oneFolder_ok.2.1⟩
example : (flatten oneFolder).length = 5 := by decide

/-- Two folders without `_root.sds`. -/
def twoFolders : Disk Nat := ⟨[], [("b".toList, [("y.sds".toList, some 1), ("x.sds".toList, some 2)]), ("c.sds".toList, [("x.sds".toList, some 3)])]⟩

example : twoFolders.Proper ∧ twoFolders.Free ∧ twoFolders.NoRoot ∧ (flatten twoFolders).length = 6 := by
  refine ⟨⟨by decide, by decide⟩, ⟨by decide, ?_, ?_⟩, by unfold Disk.NoRoot; decide, by decide⟩
  · intro e he f hf t ht
    rw [place_iff] at ht
    simp only [twoFolders, List.mem_cons, List.not_mem_nil, or_false] at he
    rcases he with rfl | rfl <;> simp only [List.mem_cons, List.not_mem_nil, or_false] at hf
    · rcases hf with rfl | rfl <;> subst ht <;> decide
    · subst hf; subst ht; decide
  · intro e he f hf e' he' f' hf' t ht ht'
    rw [place_iff] at ht ht'
    simp only [twoFolders, List.mem_cons, List.not_mem_nil, or_false] at he he'
    rcases he with rfl | rfl <;> rcases he' with rfl | rfl <;> simp only [List.mem_cons, List.not_mem_nil, or_false] at hf hf' <;> try rfl
    · subst hf'
      rcases hf with rfl | rfl <;> (rw [ht] at ht'; exact absurd ht' (by decide))
    · subst hf
      rcases hf' with rfl | rfl <;> (rw [ht] at ht'; exact absurd ht' (by decide))

/-- A folder that is skipped, and the next one is not. -/
example : (final (⟨[("b!x.sds".toList, 7)], [("b".toList, [("x.sds".toList, some 2)]), ("c".toList, [("x.sds".toList, some 3)]), ("d".toList, [("x.txt".toList, some 4)])]⟩ : Disk Nat)) =
    ⟨[("b!x.sds".toList, 7), ("c!x.sds".toList, 3)], [("b".toList, [("x.sds".toList, some 2)]), ("d".toList, [("x.txt".toList, some 4)])]⟩ := by rfl

end Verif.Flatten
