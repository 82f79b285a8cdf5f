import Verif.Sds.Lemmas

/-! Proof infrastructure: one container in one file. -/
namespace Verif.Sds
open Verif.Items (Dict Name)
open Verif.Items.Dict

variable {A S X M V : Type}

/-- the items as the arrays of the file give them, before special arrays are rebuilt -/
def rawLevel (L : Lib A S X M) : Box A S X → Dict Name (Slot A S X)
  | .nil => []
  | .leaf n (.spec x) rest => (n, some (.arr (L.base x))) :: rawLevel L rest
  | .leaf n l rest => (n, some l) :: rawLevel L rest
  | .nest n _ _ rest => (n, none) :: rawLevel L rest

theorem keys_level : ∀ b : Box A S X, keys b.level = b.names
  | .nil => rfl
  | .leaf n l rest => by rw [Box.level, keys_cons, names_leaf, keys_level rest]
  | .nest n i b rest => by rw [Box.level, keys_cons, names_nest, keys_level rest]

theorem keys_rawLevel (L : Lib A S X M) : ∀ b : Box A S X, keys (rawLevel L b) = b.names
  | .nil => rfl
  | .leaf n (.spec x) rest => by rw [rawLevel, keys_cons, names_leaf, keys_rawLevel L rest]
  | .leaf n (.arr a) rest => by rw [rawLevel, keys_cons, names_leaf, keys_rawLevel L rest]; simp
  | .leaf n (.sc s) rest => by rw [rawLevel, keys_cons, names_leaf, keys_rawLevel L rest]; simp
  | .nest n i b rest => by rw [rawLevel, keys_cons, names_nest, keys_rawLevel L rest]

theorem main_load (L : Lib A S X M) (hL : LibOK L) (sp : Dict Name (List A)) : ∀ (b : Box A S X)
    (d : Dict Name (Slot A S X)), b.names.Nodup → (∀ k ∈ keys d, k ∉ b.names) →
    (mainCells L b).foldl (loadCell L) (d, sp) = (d ++ rawLevel L b, sp)
  | .nil, d, _, _ => by simp [mainCells, rawLevel]
  | .leaf n l rest, d, hn, hd => by
    rw [names_leaf] at hn hd
    rw [List.nodup_cons] at hn
    have h0 : n ∉ keys d := fun h => hd n h (by simp)
    have h1 : ∀ v : Slot A S X, ∀ k ∈ keys (d ++ [(n, v)]), k ∉ rest.names := by
      intro v k hk hk'
      rw [keys_append, List.mem_append] at hk
      rcases hk with hk | hk
      · exact hd k hk (List.mem_cons_of_mem _ hk')
      · have : k = n := by simpa [keys] using hk
        exact hn.1 (this ▸ hk')
    cases l with
    | arr a =>
      simp only [mainCells, List.foldl_cons, loadCell]
      rw [set_of_notMem h0, main_load L hL sp rest _ hn.2 (h1 _)]
      simp [rawLevel]
    | sc s =>
      simp only [mainCells, List.foldl_cons, loadCell, hL.first_one]
      rw [set_of_notMem h0, main_load L hL sp rest _ hn.2 (h1 _)]
      simp [rawLevel]
    | spec x =>
      simp only [mainCells, List.foldl_cons, loadCell]
      rw [set_of_notMem h0, main_load L hL sp rest _ hn.2 (h1 _)]
      simp [rawLevel]
  | .nest n i b rest, d, hn, hd => by
    rw [names_nest] at hn hd
    rw [List.nodup_cons] at hn
    have h0 : n ∉ keys d := fun h => hd n h (by simp)
    simp only [mainCells, List.foldl_cons, loadCell]
    rw [set_of_notMem h0, main_load L hL sp rest _ hn.2]
    · simp [rawLevel]
    · intro k hk hk'
      rw [keys_append, List.mem_append] at hk
      rcases hk with hk | hk
      · exact hd k hk (List.mem_cons_of_mem _ hk')
      · have : k = n := by simpa [keys] using hk
        exact hn.1 (this ▸ hk')

/-- the extra arrays are collected by the name in front of the first `!` -/
theorem extra_load (L : Lib A S X M) (d : Dict Name (Slot A S X)) : ∀ (cs : List (Name × A))
    (sp : Dict Name (List A)),
    ∃ sp', (cs.map fun c => ((c.1, FFlag.extra, some c.2) : Name × FFlag × Option A)).foldl (loadCell L) (d, sp) = (d, sp') ∧
      ∀ n, (sp'.get n).getD [] = (sp.get n).getD [] ++ (cs.filter fun c => beforeBang c.1 = n).map Prod.snd
  | [], sp => ⟨sp, rfl, by simp⟩
  | c :: cs, sp => by
    obtain ⟨sp', h1, h2⟩ := extra_load L d cs
      (sp.set (beforeBang c.1) ((sp.get (beforeBang c.1)).getD [] ++ [c.2]))
    refine ⟨sp', ?_, ?_⟩
    · rw [← h1]; rfl
    · intro n
      rw [h2 n, get_set]
      by_cases hn : beforeBang c.1 = n
      · simp [hn]
      · have hn' : ¬ n = beforeBang c.1 := fun h => hn h.symm
        simp [hn, hn']

theorem beforeBang_col {n : Name} (h : '!' ∉ n) (r : Name) : beforeBang (n ++ '!' :: r) = n := by
  refine takeWhile_stop (by decide) r fun c hc => ?_
  have : c ≠ '!' := fun e => h (e ▸ hc)
  simp [this]

theorem filter_cols (L : Lib A S X M) : ∀ (l : List (Name × X)), (l.map Prod.fst).Nodup →
    (∀ p ∈ l, '!' ∉ p.1) → ∀ n x, (n, x) ∈ l →
    ((l.flatMap fun p => colCells L p.1 p.2).filter fun c => beforeBang c.1 = n).map Prod.snd
      = (L.cols x).map Prod.snd := by
  have key : ∀ (m : Name) (y : X) (n : Name), '!' ∉ m →
      (colCells L m y).filter (fun c => beforeBang c.1 = n) = if m = n then colCells L m y else [] := by
    intro m y n hm
    have hb : ∀ c ∈ colCells L m y, beforeBang c.1 = m := by
      intro c hc
      obtain ⟨c', _, rfl⟩ := List.mem_map.1 hc
      exact beforeBang_col hm _
    by_cases hmn : m = n
    · rw [if_pos hmn, List.filter_eq_self]
      intro c hc
      simp [hb c hc, hmn]
    · rw [if_neg hmn, List.filter_eq_nil_iff]
      intro c hc
      simp [hb c hc, hmn]
  intro l
  induction l with
  | nil => intro _ _ n x h; simp at h
  | cons p l ih =>
    intro hn hb n x hx
    rw [List.map_cons, List.nodup_cons] at hn
    rw [List.flatMap_cons, List.filter_append, key _ _ _ (hb p (by simp)), List.map_append]
    rcases List.mem_cons.1 hx with h | h
    · subst h
      have hz : (l.flatMap fun p => colCells L p.1 p.2).filter (fun c => beforeBang c.1 = n) = [] := by
        rw [List.filter_eq_nil_iff]
        intro c hc
        obtain ⟨q, hq, hc⟩ := List.mem_flatMap.1 hc
        obtain ⟨c', _, rfl⟩ := List.mem_map.1 hc
        have hqn : q.1 ≠ n := fun e => hn.1 (List.mem_map.2 ⟨q, hq, e⟩)
        simp [beforeBang_col (hb q (by simp [hq])), hqn]
      rw [hz]
      simp [colCells, Function.comp_def]
    · have hpn : p.1 ≠ n := fun e => hn.1 (List.mem_map.2 ⟨(n, x), h, e.symm⟩)
      rw [if_neg hpn, ih hn.2 (fun q hq => hb q (by simp [hq])) n x h]
      simp

theorem specials_names : ∀ (b : Box A S X), ∀ p ∈ specials b, p.1 ∈ b.names
  | .nil, p, hp => by simp [specials] at hp
  | .leaf n (.spec x) rest, p, hp => by
    rw [specials, List.mem_cons] at hp
    rw [names_leaf]
    rcases hp with rfl | hp
    · simp
    · exact List.mem_cons_of_mem _ (specials_names rest p hp)
  | .leaf n (.arr a) rest, p, hp => List.mem_cons_of_mem _ (specials_names rest p hp)
  | .leaf n (.sc s) rest, p, hp => List.mem_cons_of_mem _ (specials_names rest p hp)
  | .nest n i b rest, p, hp => List.mem_cons_of_mem _ (specials_names rest p hp)

theorem specials_nodup : ∀ (b : Box A S X), b.names.Nodup → ((specials b).map Prod.fst).Nodup
  | .nil, _ => by simp [specials]
  | .leaf n (.spec x) rest, h => by
    rw [names_leaf, List.nodup_cons] at h
    rw [specials, List.map_cons, List.nodup_cons]
    refine ⟨fun hm => ?_, specials_nodup rest h.2⟩
    obtain ⟨p, hp, hpn⟩ := List.mem_map.1 hm
    have : p.1 = n := hpn
    exact h.1 (this ▸ specials_names rest p hp)
  | .leaf n (.arr a) rest, h => specials_nodup rest (List.nodup_cons.1 (names_leaf n _ rest ▸ h)).2
  | .leaf n (.sc s) rest, h => specials_nodup rest (List.nodup_cons.1 (names_leaf n _ rest ▸ h)).2
  | .nest n i b rest, h => specials_nodup rest (List.nodup_cons.1 (names_nest n i b rest ▸ h)).2

theorem specials_level : ∀ (b : Box A S X) (n : Name) (x : X), (n, x) ∈ specials b ↔ (n, some (.spec x)) ∈ b.level
  | .nil, n, x => by simp [specials, Box.level]
  | .leaf m (.spec y) rest, n, x => by simp [specials, Box.level, specials_level rest]
  | .leaf m (.arr a) rest, n, x => by simp [specials, Box.level, specials_level rest]
  | .leaf m (.sc s) rest, n, x => by simp [specials, Box.level, specials_level rest]
  | .nest m i b rest, n, x => by simp [specials, Box.level, specials_level rest]

theorem get_mid (pre post : Dict Name V) (n : Name) (v : V) (h : n ∉ keys pre) :
    Dict.get (pre ++ (n, v) :: post) n = some v := by
  induction pre with
  | nil => simp [get_cons]
  | cons p pre ih =>
    rw [keys_cons, List.mem_cons, not_or] at h
    rw [List.cons_append, get_cons, if_neg (fun e => h.1 e.symm), ih h.2]

/-- rebuilding the special arrays -/
theorem meta_load (L : Lib A S X M) (hL : LibOK L) (sp : Dict Name (List A)) : ∀ (b : Box A S X)
    (pre : Dict Name (Slot A S X)), b.names.Nodup → (∀ k ∈ keys pre, k ∉ b.names) →
    (∀ n x, (n, x) ∈ specials b → (sp.get n).getD [] = (L.cols x).map Prod.snd) →
    ((specials b).map fun p => (p.1, L.info p.2)).foldl (loadMeta L sp) (some (pre ++ rawLevel L b))
      = some (pre ++ b.level)
  | .nil, pre, _, _, _ => by simp [specials, rawLevel, Box.level]
  | .leaf n l rest, pre, hn, hp, hs => by
    rw [names_leaf] at hn hp
    rw [List.nodup_cons] at hn
    have h0 : n ∉ keys pre := fun h => hp n h (by simp)
    have h1 : ∀ v : Slot A S X, ∀ k ∈ keys (pre ++ [(n, v)]), k ∉ rest.names := by
      intro v k hk hk'
      rw [keys_append, List.mem_append] at hk
      rcases hk with hk | hk
      · exact hp k hk (List.mem_cons_of_mem _ hk')
      · have : k = n := by simpa [keys] using hk
        exact hn.1 (this ▸ hk')
    cases l with
    | arr a =>
      have := meta_load L hL sp rest (pre ++ [(n, some (.arr a))]) hn.2 (h1 _) hs
      simpa [specials, rawLevel, Box.level] using this
    | sc s =>
      have := meta_load L hL sp rest (pre ++ [(n, some (.sc s))]) hn.2 (h1 _) hs
      simpa [specials, rawLevel, Box.level] using this
    | spec x =>
      have := meta_load L hL sp rest (pre ++ [(n, some (.spec x))]) hn.2 (h1 _)
        (fun m y h => hs m y (List.mem_cons_of_mem _ h))
      have hg : Dict.get (pre ++ (n, some (.arr (L.base x))) :: rawLevel L rest) n
          = some (some (.arr (L.base x))) := by
        exact get_mid _ _ _ _ h0
      have hnr : n ∉ keys (rawLevel L rest) := by rw [keys_rawLevel]; exact hn.1
      simp only [specials, rawLevel, List.map_cons, List.foldl_cons, loadMeta, hg,
        hs n x (by simp [specials]), hL.load, Box.level]
      rw [set_mid _ _ _ _ _ h0 hnr]
      simpa using this
  | .nest n i b rest, pre, hn, hp, hs => by
    rw [names_nest] at hn hp
    rw [List.nodup_cons] at hn
    have := meta_load L hL sp rest (pre ++ [(n, none)]) hn.2 (by
      intro k hk hk'
      rw [keys_append, List.mem_append] at hk
      rcases hk with hk | hk
      · exact hp k hk (List.mem_cons_of_mem _ hk')
      · have : k = n := by simpa [keys] using hk
        exact hn.1 (this ▸ hk')) hs
    simpa [specials, rawLevel, Box.level] using this

/-- a container comes back from its file -/
theorem loadFile_buildFile (L : Lib A S X M) (hL : LibOK L) (i : Info) (b : Box A S X)
    (hn : b.names.Nodup) (hb : ∀ p ∈ specials b, '!' ∉ p.1) :
    loadFile L (buildFile L i b) = some (i, b.level) := by
  unfold loadFile buildFile
  simp only [List.foldl_append]
  have h1 := main_load L hL [] b [] hn (by simp [keys])
  rw [h1]
  have he : ((specials b).flatMap fun p => (colCells L p.1 p.2).map fun c =>
      ((c.1, FFlag.extra, some c.2) : Name × FFlag × Option A))
      = ((specials b).flatMap fun p => colCells L p.1 p.2).map fun c => (c.1, FFlag.extra, some c.2) := by
    rw [List.map_flatMap]
  rw [he]
  obtain ⟨sp, h2, h3⟩ := extra_load L ([] ++ rawLevel L b)
    ((specials b).flatMap fun p => colCells L p.1 p.2) []
  rw [h2]
  have h4 := meta_load L hL sp b [] hn (by simp [keys]) (by
    intro n x hx
    rw [h3 n, filter_cols L _ (specials_nodup b hn) hb n x hx]
    simp)
  simp only [h4]
  simp

end Verif.Sds
