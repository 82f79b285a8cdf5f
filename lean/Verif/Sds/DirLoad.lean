import Verif.Sds.DirLemmas

/-! Proof infrastructure: loading a directory. -/
namespace Verif.Sds
open Verif.Items (Dict Name)
open Verif.Items.Dict

variable {A S X M V : Type}

/-! ## The dictionary of names -/

namespace Sch

def keys : Sch → List Name
  | nil => []
  | node n _ r => n :: r.keys

def WF : Sch → Prop
  | nil => True
  | node n k r => n ∉ r.keys ∧ k.WF ∧ r.WF

/-- the path is in the dictionary -/
def has : Sch → List Name → Prop
  | _, [] => True
  | nil, _ :: _ => False
  | node m k r, n :: p => (m = n ∧ k.has p) ∨ r.has (n :: p)

theorem has_nil (s : Sch) : s.has [] := by cases s <;> trivial

theorem chain_has : ∀ q p : List Name, (chain q).has p ↔ p <+: q
  | q, [] => by simp [has_nil]
  | [], n :: p => by simp [chain, has]
  | m :: q, n :: p => by
    simp only [chain, has, chain_has q p, or_false]
    rw [List.cons_prefix_cons]
    constructor
    · rintro ⟨rfl, h⟩; exact ⟨rfl, h⟩
    · rintro ⟨rfl, h⟩; exact ⟨rfl, h⟩

theorem add_has (s : Sch) : ∀ q p : List Name, (s.add q).has p ↔ s.has p ∨ p <+: q := by
  induction s with
  | nil =>
    intro q p
    rw [add, chain_has]
    cases p with
    | nil => simp [has_nil]
    | cons n p => simp [has]
  | node m k r ihk ihr =>
    intro q p
    cases p with
    | nil => simp [has_nil]
    | cons n' p =>
      cases q with
      | nil => simp [add]
      | cons n q =>
        rw [add, List.cons_prefix_cons]
        split
        · rename_i hmn
          subst hmn
          simp only [has, ihk]
          constructor
          · rintro (⟨rfl, h | h⟩ | h)
            · exact Or.inl (Or.inl ⟨rfl, h⟩)
            · exact Or.inr ⟨rfl, h⟩
            · exact Or.inl (Or.inr h)
          · rintro ((⟨rfl, h⟩ | h) | ⟨rfl, h⟩)
            · exact Or.inl ⟨rfl, Or.inl h⟩
            · exact Or.inr h
            · exact Or.inl ⟨rfl, Or.inr h⟩
        · simp only [has, ihr, List.cons_prefix_cons, or_assoc]

theorem keys_has (s : Sch) (n : Name) : n ∈ s.keys ↔ s.has [n] := by
  induction s with
  | nil => simp [keys, has]
  | node m k r _ ih =>
    simp only [keys, List.mem_cons, ih, has, has_nil, and_true]
    constructor
    · rintro (rfl | h)
      · exact Or.inl rfl
      · exact Or.inr h
    · rintro (rfl | h)
      · exact Or.inl rfl
      · exact Or.inr h

theorem has_head (s : Sch) (n : Name) (p : List Name) (h : s.has (n :: p)) : n ∈ s.keys := by
  induction s with
  | nil => simp [has] at h
  | node m k r _ ih =>
    rcases h with ⟨rfl, _⟩ | h
    · simp [keys]
    · exact List.mem_cons_of_mem _ (ih h)

theorem chain_WF : ∀ q : List Name, (chain q).WF
  | [] => trivial
  | _ :: q => ⟨by simp [keys], chain_WF q, trivial⟩

theorem add_WF (s : Sch) : ∀ q : List Name, s.WF → (s.add q).WF := by
  induction s with
  | nil => intro q _; rw [add]; exact chain_WF q
  | node m k r ihk ihr =>
    intro q h
    cases q with
    | nil => exact h
    | cons n q =>
      rw [add]
      split
      · exact ⟨h.1, ihk q h.2.1, h.2.2⟩
      · rename_i hmn
        refine ⟨?_, h.2.1, ihr _ h.2.2⟩
        rw [keys_has, add_has, not_or]
        refine ⟨fun hh => h.1 ((keys_has r m).2 hh), ?_⟩
        rw [List.cons_prefix_cons]
        exact fun hh => hmn hh.1

theorem fold_WF : ∀ (l : List Name) (s : Sch), s.WF →
    (l.foldl (fun (s : Sch) (f : Name) => s.add (splitBang f)) s).WF
  | [], _, h => h
  | f :: l, s, h => fold_WF l _ (add_WF s (splitBang f) h)

theorem fold_has (p : List Name) : ∀ (l : List Name) (s : Sch),
    (l.foldl (fun (s : Sch) (f : Name) => s.add (splitBang f)) s).has p
      ↔ s.has p ∨ ∃ f ∈ l, p <+: splitBang f
  | [], s => by simp
  | f :: l, s => by
    rw [List.foldl_cons, fold_has p l, add_has, or_assoc]
    simp

theorem keep_has (q : Name → Bool) (s : Sch) (n : Name) (p : List Name) :
    (s.keep q).has (n :: p) ↔ q n = true ∧ s.has (n :: p) := by
  induction s with
  | nil => simp [keep, has]
  | node m k r _ ih =>
    rw [keep]
    split
    · rename_i hm
      simp only [has, ih]
      constructor
      · rintro (⟨rfl, h⟩ | ⟨h1, h2⟩)
        · exact ⟨hm, Or.inl ⟨rfl, h⟩⟩
        · exact ⟨h1, Or.inr h2⟩
      · rintro ⟨h1, (h | h)⟩
        · exact Or.inl h
        · exact Or.inr ⟨h1, h⟩
    · rename_i hm
      rw [ih]
      simp only [has]
      constructor
      · rintro ⟨h1, h2⟩; exact ⟨h1, Or.inr h2⟩
      · rintro ⟨h1, (⟨rfl, h⟩ | h)⟩
        · exact absurd h1 hm
        · exact ⟨h1, h⟩

theorem keep_WF (q : Name → Bool) (s : Sch) (h : s.WF) : (s.keep q).WF := by
  induction s with
  | nil => trivial
  | node m k r _ ih =>
    rw [keep]
    split
    · refine ⟨?_, h.2.1, ih h.2.2⟩
      rw [keys_has, keep_has]
      exact fun hh => h.1 ((keys_has r m).2 hh.2)
    · exact ih h.2.2

theorem WF.nodup {s : Sch} (h : s.WF) : s.keys.Nodup := by
  induction s with
  | nil => simp [keys]
  | node m k r _ ih => exact List.nodup_cons.2 ⟨h.1, ih h.2.2⟩

end Sch

/-! ## Finding items -/

theorem find_ofItems : ∀ (l : List (Name × Node A S X)) (n : Name), (Box.ofItems l).find n = Dict.get l n
  | [], n => rfl
  | (m, .leaf x) :: l, n => by rw [Box.ofItems, Box.find, get_cons, find_ofItems l n]
  | (m, .box i b) :: l, n => by rw [Box.ofItems, Box.find, get_cons, find_ofItems l n]

theorem names_ofItems : ∀ (l : List (Name × Node A S X)), (Box.ofItems l).names = keys l
  | [] => rfl
  | (m, .leaf x) :: l => by rw [Box.ofItems, names_leaf, keys_cons, names_ofItems l]
  | (m, .box i b) :: l => by rw [Box.ofItems, names_nest, keys_cons, names_ofItems l]

/-- an item without the contents of a container -/
def shell : Node A S X → Slot A S X
  | .leaf l => some l
  | .box _ _ => none

theorem level_get : ∀ (b : Box A S X) (n : Name), Dict.get b.level n = (b.find n).map shell
  | .nil, n => rfl
  | .leaf m l rest, n => by
    rw [Box.level, get_cons, Box.find, level_get rest n]
    split <;> rfl
  | .nest m i b rest, n => by
    rw [Box.level, get_cons, Box.find, level_get rest n]
    split <;> rfl

theorem find_names : ∀ (b : Box A S X) (n : Name), (b.find n).isSome ↔ n ∈ b.names
  | .nil, n => by simp [Box.find, Box.names, Box.items]
  | .leaf m l rest, n => by
    rw [Box.find, names_leaf, List.mem_cons, ← find_names rest n]
    split
    · rename_i h; simp [h]
    · rename_i h; have hne : n ≠ m := fun e => h e.symm; simp [hne]
  | .nest m i b rest, n => by
    rw [Box.find, names_nest, List.mem_cons, ← find_names rest n]
    split
    · rename_i h; simp [h]
    · rename_i h; have hne : n ≠ m := fun e => h e.symm; simp [hne]

theorem boxNames_find : ∀ {b : Box A S X}, DirNames b → ∀ (n : Name),
    n ∈ b.boxNames ↔ ∃ i c, b.find n = some (.box i c)
  | .nil, _, n => by simp [Box.boxNames, Box.find]
  | .leaf m l rest, h, n => by
    rw [Box.boxNames, Box.find, boxNames_find h.2.2 n]
    split
    · rename_i hm
      subst hm
      simp [find_notMem rest m h.2.1]
    · rfl
  | .nest m i b rest, h, n => by
    rw [Box.boxNames, Box.find, List.mem_cons, boxNames_find h.2.2.2.2 n]
    split
    · rename_i hm; simp [hm]
    · rename_i hm; have hne : n ≠ m := fun e => hm e.symm; simp [hne]

theorem boxNames_nodup : ∀ {b : Box A S X}, DirNames b → b.boxNames.Nodup
  | .nil, _ => by simp [Box.boxNames]
  | .leaf m l rest, h => boxNames_nodup (b := rest) h.2.2
  | .nest m i b rest, h => by
    rw [Box.boxNames, List.nodup_cons]
    refine ⟨fun hm => h.2.2.1 ?_, boxNames_nodup h.2.2.2.2⟩
    obtain ⟨j, c, hc⟩ := (boxNames_find h.2.2.2.2 m).1 hm
    exact (find_names rest m).1 (by rw [hc]; rfl)

theorem dirNames_nodup : ∀ {b : Box A S X}, DirNames b → b.names.Nodup
  | .nil, _ => by simp [Box.names, Box.items]
  | .leaf m l rest, h => by rw [names_leaf]; exact List.nodup_cons.2 ⟨h.2.1, dirNames_nodup h.2.2⟩
  | .nest m i b rest, h => by rw [names_nest]; exact List.nodup_cons.2 ⟨h.2.2.1, dirNames_nodup h.2.2.2.2⟩

theorem dirNames_special : ∀ {b : Box A S X}, DirNames b → ∀ p ∈ specials b, '!' ∉ p.1
  | .nil, _, p, hp => by simp [specials] at hp
  | .leaf m (.spec x) rest, h, p, hp => by
    rw [specials, List.mem_cons] at hp
    rcases hp with rfl | hp
    · exact h.1 ⟨x, rfl⟩
    · exact dirNames_special (b := rest) h.2.2 p hp
  | .leaf m (.arr a) rest, h, p, hp => dirNames_special (b := rest) h.2.2 p hp
  | .leaf m (.sc s) rest, h, p, hp => dirNames_special (b := rest) h.2.2 p hp
  | .nest m i b rest, h, p, hp => dirNames_special (b := rest) h.2.2.2.2 p hp

theorem find_dirNames : ∀ {b : Box A S X}, DirNames b → ∀ {n : Name} {i : Info} {c : Box A S X},
    b.find n = some (.box i c) → DirName n ∧ (i.isDataset = true → c.boxNames = []) ∧ DirNames c
  | .nil, _, n, i, c, h => by simp [Box.find] at h
  | .leaf m l rest, hb, n, i, c, h => by
    rw [Box.find] at h
    split at h
    · simp at h
    · exact find_dirNames hb.2.2 h
  | .nest m j d rest, hb, n, i, c, h => by
    rw [Box.find] at h
    split at h
    · rename_i hm
      simp only [Option.some.injEq, Node.box.injEq] at h
      obtain ⟨rfl, rfl⟩ := h
      exact hm ▸ ⟨hb.1, hb.2.1, hb.2.2.2.1⟩
    · exact find_dirNames hb.2.2.2.2 h

theorem follow_cons (n : Name) (p : List Name) (i : Info) (b : Box A S X) :
    (∃ j c, b.find n = some (.box j c) ∧ follow (n :: p) (i, b) = follow p (j, c)) ∨
      ((∀ j c, b.find n ≠ some (.box j c)) ∧ follow (n :: p) (i, b) = none) := by
  cases h : b.find n with
  | none => exact Or.inr ⟨by simp, by simp [follow, h]⟩
  | some v =>
    cases v with
    | leaf l => exact Or.inr ⟨by simp, by simp [follow, h]⟩
    | box j c => exact Or.inl ⟨j, c, rfl, by simp [follow, h]⟩

theorem follow_find {n : Name} {p : List Name} {i j : Info} {b c : Box A S X} (h : b.find n = some (.box j c)) :
    follow (n :: p) (i, b) = follow p (j, c) := by simp [follow, h]

theorem follow_append (s : Info × Box A S X) : ∀ (P q : List Name) (c : Info × Box A S X), follow P s = some c →
    follow (P ++ q) s = follow q c := by
  intro P
  induction P generalizing s with
  | nil => intro q c h; cases h; rfl
  | cons n P ih =>
    intro q c h
    obtain ⟨i, b⟩ := s
    rcases follow_cons n P i b with ⟨j, d, h1, h2⟩ | ⟨h1, h2⟩
    · rw [h2] at h
      rw [List.cons_append, follow_find h1, ih (j, d) q c h]
    · rw [h2] at h; cases h

theorem follow_dirNames : ∀ (p : List Name) (s c : Info × Box A S X), DirNames s.2 → follow p s = some c →
    DirNames c.2 ∧ ∀ n ∈ p, DirName n
  | [], s, c, h, hf => by cases hf; exact ⟨h, by simp⟩
  | n :: p, (i, b), c, h, hf => by
    rcases follow_cons n p i b with ⟨j, d, h1, h2⟩ | ⟨_, h2⟩
    · rw [h2] at hf
      obtain ⟨h3, _, h4⟩ := find_dirNames h h1
      obtain ⟨h5, h6⟩ := follow_dirNames p (j, d) c h4 hf
      refine ⟨h5, ?_⟩
      intro m hm
      rcases List.mem_cons.1 hm with rfl | hm
      · exact h3
      · exact h6 m hm
    · rw [h2] at hf; cases hf

/-! ## Putting containers together -/

theorem slots_get (d : Slots A S X) (hn : (keys d).Nodup) (n : Name) :
    (ofSlots d).find n = (d.get n).join := by
  unfold ofSlots
  rw [find_ofItems]
  induction d with
  | nil => rfl
  | cons e d ih =>
    rw [keys_cons, List.nodup_cons] at hn
    obtain ⟨m, v⟩ := e
    have hnone : ∀ k, k ∉ keys d → Dict.get (List.filterMap (fun e : Name × Option (Node A S X) =>
        e.2.map fun v => (e.1, v)) d) k = none := by
      intro k hk
      rw [get_eq_none_iff]
      intro hk'
      obtain ⟨q, hq, rfl⟩ := List.mem_map.1 hk'
      obtain ⟨e, he, heq⟩ := List.mem_filterMap.1 hq
      obtain ⟨v, _, rfl⟩ := Option.map_eq_some_iff.1 heq
      exact hk (List.mem_map.2 ⟨e, he, rfl⟩)
    cases v with
    | none =>
      rw [List.filterMap_cons_none (by rfl), get_cons]
      by_cases h : m = n
      · subst h
        simp [hnone m hn.1]
      · simp [h, ih hn.2]
    | some v =>
      rw [List.filterMap_cons_some (by rfl), get_cons, get_cons]
      by_cases h : m = n
      · simp [h]
      · simp [h, ih hn.2]

theorem slots_names (d : Slots A S X) (h : ∀ e ∈ d, e.2.isSome) : (ofSlots d).names = keys d := by
  unfold ofSlots
  rw [names_ofItems]
  induction d with
  | nil => rfl
  | cons e d ih =>
    obtain ⟨m, v⟩ := e
    cases v with
    | none => exact absurd (h (m, none) (by simp)) (by simp)
    | some v =>
      rw [List.filterMap_cons_some (by rfl), keys_cons, keys_cons, ih fun e he => h e (by simp [he])]

theorem putKids_get : ∀ (kids : List (Name × Info × Box A S X)) (d : Slots A S X) (n : Name),
    (kids.map Prod.fst).Nodup →
    (∀ k ∈ kids, k.1 = n → (putKids d kids).get n = some (some (.box k.2.1 k.2.2))) ∧
      (n ∉ kids.map Prod.fst → (putKids d kids).get n = d.get n)
  | [], d, n, _ => ⟨by simp, fun _ => rfl⟩
  | k :: kids, d, n, hn => by
    rw [List.map_cons, List.nodup_cons] at hn
    obtain ⟨h1, h2⟩ := putKids_get kids (d.set k.1 (some (.box k.2.1 k.2.2))) n hn.2
    have hfold : putKids d (k :: kids) = putKids (d.set k.1 (some (.box k.2.1 k.2.2))) kids := rfl
    refine ⟨?_, ?_⟩
    · intro k' hk' hkn
      rw [hfold]
      rcases List.mem_cons.1 hk' with rfl | hk'
      · rw [h2 (hkn ▸ hn.1), get_set, if_pos hkn.symm]
      · exact h1 k' hk' hkn
    · intro hne
      rw [List.map_cons, List.mem_cons, not_or] at hne
      rw [hfold, h2 hne.2, get_set, if_neg hne.1]

theorem putKids_keys : ∀ (kids : List (Name × Info × Box A S X)) (d : Slots A S X),
    (∀ k ∈ kids, k.1 ∈ keys d) → keys (putKids d kids) = keys d
  | [], _, _ => rfl
  | k :: kids, d, h => by
    have hk := keys_set_of_mem (h k (by simp)) (some (.box k.2.1 k.2.2) : Option (Node A S X))
    have := putKids_keys kids (d.set k.1 (some (.box k.2.1 k.2.2))) (by
      intro k' hk'
      rw [hk]
      exact h k' (by simp [hk']))
    rw [hk] at this
    exact this

theorem putKids_nil (kids : List (Name × Info × Box A S X)) (hn : (kids.map Prod.fst).Nodup) :
    putKids [] kids = kids.map fun k => (k.1, some (.box k.2.1 k.2.2)) := by
  have key : ∀ (ks : List (Name × Info × Box A S X)) (d : Slots A S X), (ks.map Prod.fst).Nodup →
      (∀ k ∈ ks, k.1 ∉ keys d) → putKids d ks = d ++ ks.map fun k => (k.1, some (.box k.2.1 k.2.2)) := by
    intro ks
    induction ks with
    | nil => intro d _ _; simp [putKids]
    | cons k ks ih =>
      intro d hn hd
      rw [List.map_cons, List.nodup_cons] at hn
      have hfold : putKids d (k :: ks) = putKids (d.set k.1 (some (.box k.2.1 k.2.2))) ks := rfl
      rw [hfold, set_of_notMem (hd k (by simp)), ih _ hn.2]
      · simp
      · intro k' hk' hm
        rw [keys_append, List.mem_append] at hm
        rcases hm with hm | hm
        · exact hd k' (by simp [hk']) hm
        · have : k'.1 = k.1 := by simpa [keys] using hm
          exact hn.1 (List.mem_map.2 ⟨k', hk', this⟩)
  simpa using key kids [] hn (by simp [keys])

/-- like `SameTree`, but asking for order and so on only where there is a file -/
structure SameIn (s s' : Info × Box A S X) : Prop where
  found : ∀ p, (follow p s).isSome ↔ (follow p s').isSome
  names : ∀ p c c', follow p s = some c → follow p s' = some c' → c'.2.names.Perm c.2.names
  leaf : ∀ p c c', follow p s = some c → follow p s' = some c' →
    ∀ n l, c.2.find n = some (.leaf l) ↔ c'.2.find n = some (.leaf l)
  own : ∀ p c c', follow p s = some c → follow p s' = some c' → ¬ c.2.OnlyBoxes →
    c'.1 = c.1 ∧ c'.2.names = c.2.names

/-- a container put together from containers that have been put together -/
theorem sameIn_mk {i i' : Info} {b c : Box A S X} (hnames : c.names.Perm b.names)
    (hleaf : ∀ n l, b.find n = some (.leaf l) ↔ c.find n = some (.leaf l))
    (hown : ¬ b.OnlyBoxes → i' = i ∧ c.names = b.names)
    (hbox : ∀ n, (∃ j d j' d', b.find n = some (.box j d) ∧ c.find n = some (.box j' d') ∧ SameIn (j, d) (j', d')) ∨
      ((∀ j d, b.find n ≠ some (.box j d)) ∧ ∀ j d, c.find n ≠ some (.box j d))) :
    SameIn (i, b) (i', c) := by
  have step : ∀ n p, (∃ j d j' d', SameIn (j, d) (j', d') ∧ follow (n :: p) (i, b) = follow p (j, d) ∧
      follow (n :: p) (i', c) = follow p (j', d')) ∨
      (follow (n :: p) (i, b) = none ∧ follow (n :: p) (i', c) = none) := by
    intro n p
    rcases hbox n with ⟨j, d, j', d', h1, h2, h3⟩ | ⟨h1, h2⟩
    · exact Or.inl ⟨j, d, j', d', h3, follow_find h1, follow_find h2⟩
    · right
      constructor
      · rcases follow_cons n p i b with ⟨j, d, h, _⟩ | ⟨_, h⟩
        · exact absurd h (h1 j d)
        · exact h
      · rcases follow_cons n p i' c with ⟨j, d, h, _⟩ | ⟨_, h⟩
        · exact absurd h (h2 j d)
        · exact h
  constructor
  · intro p
    cases p with
    | nil => simp [follow]
    | cons n p =>
      rcases step n p with ⟨j, d, j', d', h, h1, h2⟩ | ⟨h1, h2⟩
      · rw [h1, h2]; exact h.found p
      · rw [h1, h2]
  · intro p x x' hx hx'
    cases p with
    | nil => cases hx; cases hx'; exact hnames
    | cons n p =>
      rcases step n p with ⟨j, d, j', d', h, h1, h2⟩ | ⟨h1, h2⟩
      · exact h.names p x x' (h1 ▸ hx) (h2 ▸ hx')
      · rw [h1] at hx; cases hx
  · intro p x x' hx hx'
    cases p with
    | nil => cases hx; cases hx'; exact hleaf
    | cons n p =>
      rcases step n p with ⟨j, d, j', d', h, h1, h2⟩ | ⟨h1, h2⟩
      · exact h.leaf p x x' (h1 ▸ hx) (h2 ▸ hx')
      · rw [h1] at hx; cases hx
  · intro p x x' hx hx'
    cases p with
    | nil => cases hx; cases hx'; exact hown
    | cons n p =>
      rcases step n p with ⟨j, d, j', d', h, h1, h2⟩ | ⟨h1, h2⟩
      · exact h.own p x x' (h1 ▸ hx) (h2 ▸ hx')
      · rw [h1] at hx; cases hx

/-- the containers loaded for the items of `b` -/
def KidsOf (b : Box A S X) (kids : List (Name × Info × Box A S X)) : Prop :=
  ∀ k ∈ kids, ∃ j d, b.find k.1 = some (.box j d) ∧ SameIn (j, d) (k.2.1, k.2.2)

theorem level_slots (b : Box A S X) (n : Name) :
    (slotsOf b.level).get n = (b.find n).map fun v => (shell v).map .leaf := by
  have key : ∀ d : Dict Name (Slot A S X), (slotsOf d).get n = (d.get n).map fun v => v.map .leaf := by
    intro d
    induction d with
    | nil => rfl
    | cons e d ih =>
      have : slotsOf (e :: d) = (e.1, e.2.map .leaf) :: slotsOf d := rfl
      rw [this, get_cons, get_cons, ih]
      split <;> rfl
  rw [key, level_get, Option.map_map]
  rfl

theorem keys_slotsOf (d : Dict Name (Slot A S X)) : keys (slotsOf d) = keys d := by
  simp [keys, slotsOf, Function.comp_def]

/-- with a file: the items of the file, and the containers at their places -/
theorem put_file {b : Box A S X} (hb : DirNames b) {kids : List (Name × Info × Box A S X)}
    (hn : (kids.map Prod.fst).Nodup) (hk : ∀ n, n ∈ kids.map Prod.fst ↔ n ∈ b.boxNames)
    (hkids : KidsOf b kids) (i : Info) :
    SameIn (i, b) (i, ofSlots (putKids (slotsOf b.level) kids)) ∧
      (ofSlots (putKids (slotsOf b.level) kids)).names = b.names := by
  have hkeys : keys (putKids (slotsOf b.level) kids) = b.names := by
    rw [putKids_keys, keys_slotsOf, keys_level]
    intro k hk'
    rw [keys_slotsOf, keys_level]
    obtain ⟨j, d, h, _⟩ := hkids k hk'
    exact (find_names b k.1).1 (by rw [h]; rfl)
  have hnod : (keys (putKids (slotsOf b.level) kids)).Nodup := by rw [hkeys]; exact dirNames_nodup hb
  have hfind := slots_get (putKids (slotsOf b.level) kids) hnod
  have hother : ∀ n, n ∉ b.boxNames → (ofSlots (putKids (slotsOf b.level) kids)).find n
      = ((b.find n).map fun v => (shell v).map .leaf).join := by
    intro n hnb
    rw [hfind, (putKids_get kids _ n hn).2 (fun h => hnb ((hk n).1 h)), level_slots]
  have hkid : ∀ k ∈ kids, (ofSlots (putKids (slotsOf b.level) kids)).find k.1 = some (.box k.2.1 k.2.2) := by
    intro k hk'
    rw [hfind, (putKids_get kids _ k.1 hn).1 k hk' rfl]
    rfl
  have hnames : (ofSlots (putKids (slotsOf b.level) kids)).names = b.names := by
    rw [slots_names, hkeys]
    intro e he
    have hg : (putKids (slotsOf b.level) kids).get e.1 = some e.2 := get_of_mem hnod he
    by_cases hbx : e.1 ∈ b.boxNames
    · obtain ⟨k, hk', hke⟩ := List.mem_map.1 ((hk e.1).2 hbx)
      have := (putKids_get kids (slotsOf b.level) e.1 hn).1 k hk' hke
      rw [this] at hg
      rw [← Option.some.inj hg]; rfl
    · have := (putKids_get kids (slotsOf b.level) e.1 hn).2 (fun h => hbx ((hk e.1).1 h))
      rw [this, level_slots] at hg
      obtain ⟨v, hv, hve⟩ := Option.map_eq_some_iff.1 hg
      cases v with
      | leaf l => rw [← hve]; rfl
      | box j d => exact absurd ((boxNames_find hb e.1).2 ⟨j, d, hv⟩) hbx
  refine ⟨sameIn_mk (hnames ▸ List.Perm.refl _) ?_ (fun _ => ⟨rfl, hnames⟩) ?_, hnames⟩
  · intro n l
    by_cases hbx : n ∈ b.boxNames
    · obtain ⟨j, d, hjd⟩ := (boxNames_find hb n).1 hbx
      obtain ⟨k, hk', hke⟩ := List.mem_map.1 ((hk n).2 hbx)
      have := hkid k hk'
      rw [show k.1 = n from hke] at this
      simp [hjd, this]
    · rw [hother n hbx]
      cases hv : b.find n with
      | none => simp
      | some v =>
        cases v with
        | leaf l' => simp [shell]
        | box j d => exact absurd ((boxNames_find hb n).2 ⟨j, d, hv⟩) hbx
  · intro n
    by_cases hbx : n ∈ b.boxNames
    · obtain ⟨k, hk', hke⟩ := List.mem_map.1 ((hk n).2 hbx)
      have := hkid k hk'
      obtain ⟨j, d, hjd, hs⟩ := hkids k hk'
      rw [show k.1 = n from hke] at this hjd
      exact Or.inl ⟨j, d, _, _, hjd, this, hs⟩
    · right
      refine ⟨fun j d hjd => hbx ((boxNames_find hb n).2 ⟨j, d, hjd⟩), ?_⟩
      intro j d hjd
      rw [hother n hbx] at hjd
      cases hv : b.find n with
      | none => rw [hv] at hjd; simp at hjd
      | some v =>
        cases v with
        | leaf l' => rw [hv] at hjd; simp [shell] at hjd
        | box j d => exact hbx ((boxNames_find hb n).2 ⟨j, d, hv⟩)

/-- without a file: the containers that were found -/
theorem put_noFile {b : Box A S X} (hb : DirNames b) (ho : b.OnlyBoxes)
    {kids : List (Name × Info × Box A S X)}
    (hn : (kids.map Prod.fst).Nodup) (hk : ∀ n, n ∈ kids.map Prod.fst ↔ n ∈ b.boxNames)
    (hkids : KidsOf b kids) (i i' : Info) :
    SameIn (i, b) (i', ofSlots (putKids [] kids)) := by
  have he := putKids_nil kids hn
  have hkeys : keys (putKids [] kids) = kids.map Prod.fst := by rw [he]; simp [keys, Function.comp_def]
  have hnod : (keys (putKids [] kids)).Nodup := by rw [hkeys]; exact hn
  have hfind := slots_get (putKids [] kids) hnod
  have hkid : ∀ k ∈ kids, (ofSlots (putKids [] kids)).find k.1 = some (.box k.2.1 k.2.2) := by
    intro k hk'
    rw [hfind, (putKids_get kids _ k.1 hn).1 k hk' rfl]
    rfl
  have hother : ∀ n, n ∉ b.boxNames → (ofSlots (putKids [] kids)).find n = none := by
    intro n hnb
    rw [hfind, (putKids_get kids _ n hn).2 (fun h => hnb ((hk n).1 h))]
    rfl
  refine sameIn_mk ?_ ?_ (fun h => absurd ho h) ?_
  · rw [slots_names, hkeys, ← ho.2]
    · exact (List.perm_ext_iff_of_nodup hn (boxNames_nodup hb)).2 hk
    · intro e he'
      rw [he] at he'
      obtain ⟨k, _, rfl⟩ := List.mem_map.1 he'
      rfl
  · intro n l
    by_cases hbx : n ∈ b.boxNames
    · obtain ⟨j, d, hjd⟩ := (boxNames_find hb n).1 hbx
      obtain ⟨k, hk', hke⟩ := List.mem_map.1 ((hk n).2 hbx)
      have := hkid k hk'
      rw [show k.1 = n from hke] at this
      simp [hjd, this]
    · rw [hother n hbx, find_notMem b n (fun h => hbx (ho.2 ▸ h))]
  · intro n
    by_cases hbx : n ∈ b.boxNames
    · obtain ⟨k, hk', hke⟩ := List.mem_map.1 ((hk n).2 hbx)
      have := hkid k hk'
      obtain ⟨j, d, hjd, hs⟩ := hkids k hk'
      rw [show k.1 = n from hke] at this hjd
      exact Or.inl ⟨j, d, _, _, hjd, this, hs⟩
    · right
      refine ⟨fun j d hjd => hbx ((boxNames_find hb n).2 ⟨j, d, hjd⟩), ?_⟩
      intro j d hjd
      rw [hother n hbx] at hjd
      cases hjd

/-- the directory holds the files of the containers of `s` -/
def Holds (L : Lib A S X M) (fs : Fs A M) (s : Info × Box A S X) : Prop :=
  ∀ P c, P ≠ [] → follow P s = some c →
    fs.get (pathFile P) = if needsFile c.2 then some (buildFile L c.1 c.2) else none

theorem has_get (fs : Dict Name V) (k : Name) : fs.has k = (fs.get k).isSome := by
  rw [Bool.eq_iff_iff, has_iff]
  cases h : fs.get k with
  | none => simp [(get_eq_none_iff fs k).1 h]
  | some v =>
    simp only [Option.isSome_some, iff_true]
    exact List.mem_map.2 ⟨(k, v), mem_of_get h, rfl⟩

/-- both rounds of loading: each container gets the contents of its own file -/
theorem assemble_eq (L : Lib A S X M) (hL : LibOK L) (fs : Fs A M) (s : Info × Box A S X)
    (hs : DirNames s.2) (hfs : Holds L fs s) (sch : Sch) :
    ∀ (P : List Name) (i : Info) (b : Box A S X) (more : List (File A M)), follow P s = some (i, b) → sch.WF →
      (∀ q, q ≠ [] → sch.has q → (follow q (i, b)).isSome) →
      (∀ n p, n ∈ sch.keys → (follow (n :: p) (i, b)).isSome → sch.has (n :: p)) →
      ∃ kids, assemble L fs (pfx P) sch ((collect fs (pfx P) sch).filterMap fs.get ++ more) = some (kids, more) ∧
        kids.map Prod.fst = sch.keys ∧ KidsOf b kids := by
  induction sch with
  | nil =>
    intro P i b more _ _ _ _
    exact ⟨[], rfl, rfl, by intro k hk; simp at hk⟩
  | node m k r ihk ihr =>
    intro P i b more hP hwf hsound hcomp
    have hm : (follow [m] (i, b)).isSome := hsound [m] (by simp) (Or.inl ⟨rfl, Sch.has_nil k⟩)
    obtain ⟨j, d, hjd⟩ : ∃ j d, b.find m = some (.box j d) := by
      rcases follow_cons m [] i b with ⟨j, d, h, _⟩ | ⟨_, h⟩
      · exact ⟨j, d, h⟩
      · rw [h] at hm; simp at hm
    have hPm : follow (P ++ [m]) s = some (j, d) := by
      rw [follow_append s P [m] _ hP, follow_find hjd]; rfl
    have hb : DirNames b := (follow_dirNames P s (i, b) hs hP).1
    obtain ⟨_, hds, hd⟩ := find_dirNames hb hjd
    have hkhas : ∀ q, k.has q ↔ (follow q (j, d)).isSome := by
      intro q
      constructor
      · intro h
        have := hsound (m :: q) (by simp) (Or.inl ⟨rfl, h⟩)
        rwa [follow_find hjd] at this
      · intro h
        have := hcomp m q (by simp [Sch.keys]) (by rw [follow_find hjd]; exact h)
        rcases this with ⟨_, h⟩ | h
        · exact h
        · exact absurd (Sch.has_head r m q h) hwf.1
    have hkkeys : ∀ n, n ∈ k.keys ↔ n ∈ d.boxNames := by
      intro n
      rw [Sch.keys_has, hkhas, boxNames_find hd]
      rcases follow_cons n [] j d with ⟨j', d', h1, h2⟩ | ⟨h1, h2⟩
      · rw [h2]; simp [follow, h1]
      · rw [h2]; simp [h1]
    -- the rest
    obtain ⟨more', hr1, hr2, hr3⟩ := ihr P i b more hP hwf.2.2
      (fun q hq h => hsound q hq (by cases q with | nil => exact absurd rfl hq | cons n q => exact Or.inr h))
      (fun n p hn h => by
        rcases hcomp n p (List.mem_cons_of_mem _ hn) h with ⟨rfl, _⟩ | h'
        · exact absurd hn hwf.1
        · exact h')
    -- the containers inside
    obtain ⟨kids, hk1, hk2, hk3⟩ := ihk (P ++ [m]) j d ((collect fs (pfx P) r).filterMap fs.get ++ more) hPm
      hwf.2.1 (fun q _ h => (hkhas q).1 h) (fun n p _ h => (hkhas _).2 h)
    have hnod : (kids.map Prod.fst).Nodup := by rw [hk2]; exact hwf.2.1.nodup
    have hkn : ∀ n, n ∈ kids.map Prod.fst ↔ n ∈ d.boxNames := by rw [hk2]; exact hkkeys
    have hfile := hfs (P ++ [m]) (j, d) (by simp) hPm
    have hname : joinBang (P ++ [m]) ++ sdsExt = pathFile (P ++ [m]) := rfl
    by_cases hnf : needsFile d = true
    · simp only [hnf, if_true] at hfile
      have hhas : fs.has (pathFile (P ++ [m])) = true := by rw [has_get, hfile]; rfl
      refine ⟨(m, j, ofSlots (putKids (slotsOf d.level) kids)) :: more', ?_, ?_, ?_⟩
      · simp only [collect, childName_pfx, hname, hhas, if_true, List.filterMap_append,
          List.filterMap_cons, hfile, List.append_assoc, List.cons_append,
          List.nil_append, assemble, takeFile]
        rw [loadFile_buildFile L hL j d (dirNames_nodup hd) (dirNames_special hd)]
        simp only [Option.map_some, pfx_snoc, hk1]
        have : (j.isDataset && !kids.isEmpty) = false := by
          cases hj : j.isDataset with
          | false => rfl
          | true =>
            have : kids = [] := by
              have h0 := hds hj
              cases kids with
              | nil => rfl
              | cons x xs =>
                have := (hkn x.1).1 (by simp)
                rw [h0] at this
                simp at this
            simp [this]
        simp only [this, Bool.false_eq_true, if_false, hr1]
      · simp [hr2, Sch.keys]
      · intro x hx
        rcases List.mem_cons.1 hx with rfl | hx
        · exact ⟨j, d, hjd, (put_file hd hnod hkn hk3 j).1⟩
        · exact hr3 x hx
    · simp only [hnf] at hfile
      rw [if_neg (by simp)] at hfile
      have hhas : fs.has (pathFile (P ++ [m])) = false := by rw [has_get, hfile]; rfl
      have honly : d.OnlyBoxes := by
        by_contra hc
        exact hnf ((needsFile_iff d).2 hc)
      refine ⟨(m, newStruct, ofSlots (putKids [] kids)) :: more', ?_, ?_, ?_⟩
      · simp only [collect, childName_pfx, hname, hhas, Bool.false_eq_true, if_false,
          List.filterMap_append, List.append_assoc,
          List.nil_append, assemble, takeFile, pfx_snoc, hk1, newStruct, Bool.false_and, hr1]
      · simp [hr2, Sch.keys]
      · intro x hx
        rcases List.mem_cons.1 hx with rfl | hx
        · exact ⟨j, d, hjd, put_noFile hd honly hnod hkn hk3 j newStruct⟩
        · exact hr3 x hx

end Verif.Sds
