import Verif.Sds.Lemmas

/-! Proof infrastructure: undoing what flattening writes. -/
namespace Verif.Sds
open Verif.Items (Dict Name)
open Verif.Items.Dict

variable {A S X M V : Type}

theorem isPrefixOf_append (p k : Name) : p.isPrefixOf (p ++ k) = true := by
  rw [List.isPrefixOf_iff_prefix]; exact List.prefix_append p k

theorem drop_append_self (p k : Name) : (p ++ k).drop p.length = k := by simp

/-- no array of `rest` belongs to an item of the container at `p` with one of these names -/
def Apart (p : Name) (ns : List Name) (rest : List (Entry A)) : Prop :=
  ∀ e ∈ rest, ∀ k, e.1 = p ++ k → hd k ∉ ns

theorem items_names (b : Box A S X) : b.items.map Prod.fst = b.names := rfl

theorem unsorted_names : ∀ b : Box A S X, b.unsorted.names = b.names
  | .nil => rfl
  | .leaf n l rest => by
    rw [Box.unsorted, names_leaf, names_leaf, unsorted_names rest]
  | .nest n i b rest => by
    rw [Box.unsorted, names_nest, names_nest, unsorted_names rest]

theorem ofItems_items : ∀ b : Box A S X, Box.ofItems b.items = b
  | .nil => rfl
  | .leaf n l rest => by rw [Box.items, Box.ofItems, ofItems_items rest]
  | .nest n i b rest => by rw [Box.items, Box.ofItems, ofItems_items rest]

/-- the meta data knows the special items of the container -/
def Knows (L : Lib A S X M) (m : Dict Name (Info ⊕ M)) (b : Box A S X) : Prop :=
  ∀ p ∈ metasOf L b, m.get p.1 = some (.inr p.2)

theorem metasOf_nodup (L : Lib A S X M) : ∀ {b : Box A S X}, FlatNames b → (keys (metasOf L b)).Nodup
  | .nil, _ => by simp [metasOf, keys]
  | .leaf n (.arr a) rest, h => metasOf_nodup L (b := rest) h.2.2.2
  | .leaf n (.sc s) rest, h => metasOf_nodup L (b := rest) h.2.2.2
  | .leaf n (.spec x) rest, h => by
    rw [metasOf, keys_cons, List.nodup_cons]
    exact ⟨fun hk => h.2.2.1 (metasOf_keys L rest n hk), metasOf_nodup L h.2.2.2⟩
  | .nest n i b rest, h => metasOf_nodup L (b := rest) h.2.2.2

theorem metasOf_root (L : Lib A S X M) : ∀ {b : Box A S X}, FlatNames b →
    "_root".toList ∉ keys (metasOf L b)
  | .nil, _ => by simp [metasOf, keys]
  | .leaf n (.arr a) rest, h => metasOf_root L (b := rest) h.2.2.2
  | .leaf n (.sc s) rest, h => metasOf_root L (b := rest) h.2.2.2
  | .leaf n (.spec x) rest, h => by
    rw [metasOf, keys_cons, List.mem_cons, not_or]
    exact ⟨fun e => h.2.1 ⟨x, rfl⟩ e.symm, metasOf_root L h.2.2.2⟩
  | .nest n i b rest, h => metasOf_root L (b := rest) h.2.2.2

theorem nestedMeta_eq (i : Info) (ms : Dict Name M) (hn : (keys ms).Nodup)
    (hr : "_root".toList ∉ keys ms) :
    nestedMeta i ms = ("_root".toList, .inl i) :: ms.map fun p => (p.1, .inr p.2) := by
  unfold nestedMeta
  have := foldl_set_new (V := Info ⊕ M) Prod.fst (ms.map fun p => (p.1, .inr p.2))
    [("_root".toList, .inl i)] (by simpa [keys, Function.comp_def] using hn) (by
      intro k hk hk'
      have hk' : k = "_root".toList := by simpa [keys] using hk'
      subst hk'
      exact hr (by simpa [keys, Function.comp_def] using hk))
  rw [List.foldl_map] at this
  rw [this]
  simp [Function.comp_def]

theorem nestedMeta_root (L : Lib A S X M) (i : Info) {b : Box A S X} (h : FlatNames b) :
    (nestedMeta i (metasOf L b)).get "_root".toList = some (.inl i) := by
  rw [nestedMeta_eq i _ (metasOf_nodup L h) (metasOf_root L h), get_cons]
  simp

theorem nestedMeta_knows (L : Lib A S X M) (i : Info) {b : Box A S X} (h : FlatNames b) :
    Knows L (nestedMeta i (metasOf L b)) b := by
  intro p hp
  have hn := metasOf_nodup L h
  have hr := metasOf_root L h
  rw [nestedMeta_eq i _ hn hr]
  refine get_of_mem ?_ ?_
  · simp only [keys, List.map_cons, List.map_map, List.nodup_cons]
    exact ⟨by simpa [keys, Function.comp_def] using hr, by simpa [keys, Function.comp_def] using hn⟩
  · exact List.mem_cons_of_mem _ (List.mem_map.2 ⟨p, hp, rfl⟩)

theorem Knows.rest_leaf {L : Lib A S X M} {m : Dict Name (Info ⊕ M)} {n : Name} {l : Leaf A S X}
    {rest : Box A S X} (h : Knows L m (.leaf n l rest)) : Knows L m rest := by
  intro p hp
  refine h p ?_
  cases l with
  | arr a => exact hp
  | sc s => exact hp
  | spec x => exact List.mem_cons_of_mem _ hp

theorem takeWhile_append_stop {α : Type} {q : α → Bool} {l r : List α} (hl : ∀ x ∈ l, q x = true)
    (hr : ∀ x, r.head? = some x → q x = false) : (l ++ r).takeWhile q = l ∧ (l ++ r).dropWhile q = r := by
  induction l with
  | nil =>
    cases r with
    | nil => simp
    | cons x r => simp [hr x rfl]
  | cons y l ih =>
    have := ih fun x hx => hl x (by simp [hx])
    simp [hl y (by simp), this]

theorem prefix_elim {p k e : Name} (h : (p ++ k).isPrefixOf e = true) : ∃ r, e = p ++ (k ++ r) := by
  rw [List.isPrefixOf_iff_prefix] at h
  obtain ⟨r, hr⟩ := h
  exact ⟨r, by rw [← hr, List.append_assoc]⟩

/-- everything of `ents p rest ++ more` that starts at `p` starts with another name -/
theorem apart_cons (L : Lib A S X M) {p n : Name} {rest : Box A S X} {more : List (Entry A)}
    (hr : FlatNames rest) (hn : n ∉ rest.names) (hm : Apart p (n :: rest.names) more) :
    Apart p [n] (ents L p rest ++ more) := by
  intro e he k hk
  rw [List.mem_singleton]
  rcases List.mem_append.1 he with he | he
  · rw [ents_eq, List.mem_map] at he
    obtain ⟨e', he', rfl⟩ := he
    have : e'.1 = k := List.append_cancel_left hk
    rw [← this]
    intro h0
    exact hn (h0 ▸ hd_ents L hr e' he')
  · intro h0
    exact hm e he k hk (by rw [h0]; simp)

theorem Apart.mono {p : Name} {ns ns' : List Name} {rest : List (Entry A)} (h : Apart p ns rest)
    (hs : ns' ⊆ ns) : Apart p ns' rest := fun e he k hk hm => h e he k hk (hs hm)

theorem buildClass_eq (L : Lib A S X M) (i : Info) {b : Box A S X} (h : FlatNames b)
    (c : Box A S X) : buildClass (nestedMeta i (metasOf L b)) ([] ++ c.items) = some (i.kept, c) := by
  unfold buildClass
  rw [nestedMeta_root L i h, List.nil_append, ofItems_items]

theorem undo_nil (L : Lib A S X M) (f : Nat) (p : Name) (m : Dict Name (Info ⊕ M))
    (acc : Dict Name (Node A S X)) :
    undo L f p m acc [] = (buildClass m acc).map fun c => (c, []) := by
  cases f <;> rfl

/-- `undo` reads off the items of a container and is left with what follows -/
theorem undo_ents (L : Lib A S X M) (hL : LibOK L) (b : Box A S X) (h : FlatNames b) :
    ∀ (p : Name) (m : Dict Name (Info ⊕ M)) (acc : Dict Name (Node A S X)) (rest : List (Entry A))
      (f : Nat), Knows L m b → (∀ k ∈ keys acc, k ∉ b.names) → Apart p b.names rest →
      (ents L p b ++ rest).length ≤ f →
      ∃ f', rest.length ≤ f' ∧
        undo L f p m acc (ents L p b ++ rest) = undo L f' p m (acc ++ b.unsorted.items) rest := by
  induction b with
  | nil =>
    intro p m acc rest f _ _ _ hf
    exact ⟨f, by simpa [ents] using hf, by simp [ents, Box.unsorted, Box.items]⟩
  | leaf n l more ih =>
    intro p m acc rest f hK hacc hap hf
    have hnacc : n ∉ keys acc := fun hk => hacc n hk (by rw [names_leaf]; simp)
    have hap' : Apart p more.names rest := hap.mono (by rw [names_leaf]; simp)
    have hap1 := apart_cons L h.2.2.2 h.2.2.1 hap
    have hacc' : ∀ v : Node A S X, ∀ k ∈ keys (acc ++ [(n, v)]), k ∉ more.names := by
      intro v k hk
      rw [keys_append, List.mem_append] at hk
      rcases hk with hk | hk
      · exact fun h' => hacc k hk (by rw [names_leaf]; simp [h'])
      · have : k = n := by simpa [keys] using hk
        rw [this]; exact h.2.2.1
    simp only [ents, List.append_assoc] at hf ⊢
    cases l with
    | arr a =>
      obtain ⟨f, rfl⟩ : ∃ g, f = g + 1 := ⟨f - 1, by simp [leafEnts] at hf; omega⟩
      obtain ⟨f', h1, h2⟩ := ih h.2.2.2 p m (acc ++ [(n, .leaf (.arr a))]) rest f hK.rest_leaf
        (hacc' _) hap' (by simp [leafEnts] at hf ⊢; omega)
      refine ⟨f', h1, ?_⟩
      simp only [leafEnts, List.singleton_append, undo, isPrefixOf_append, if_true, drop_append_self]
      rw [set_of_notMem hnacc, h2]
      simp [Box.unsorted, Box.items]
    | sc s =>
      obtain ⟨f, rfl⟩ : ∃ g, f = g + 1 := ⟨f - 1, by simp [leafEnts] at hf; omega⟩
      obtain ⟨f', h1, h2⟩ := ih h.2.2.2 p m (acc ++ [(n, .leaf (.sc s))]) rest f hK.rest_leaf
        (hacc' _) hap' (by simp [leafEnts] at hf ⊢; omega)
      refine ⟨f', h1, ?_⟩
      simp only [leafEnts, List.singleton_append, undo, isPrefixOf_append, if_true, drop_append_self,
        hL.first_one]
      rw [set_of_notMem hnacc, h2]
      simp [Box.unsorted, Box.items]
    | spec x =>
      obtain ⟨f, rfl⟩ : ∃ g, f = g + 1 := ⟨f - 1, by simp [leafEnts] at hf; omega⟩
      obtain ⟨f', h1, h2⟩ := ih h.2.2.2 p m (acc ++ [(n, .leaf (.spec x))]) rest f hK.rest_leaf
        (hacc' _) hap' (by simp [leafEnts] at hf ⊢; omega)
      refine ⟨f', h1, ?_⟩
      have hm : m.get n = some (.inr (L.info x)) := hK (n, L.info x) (by simp [metasOf])
      have htw := takeWhile_append_stop
        (q := fun e : Entry A => (p ++ n ++ ['!']).isPrefixOf e.1)
        (l := (L.cols x).map fun c => (p ++ n ++ '!' :: c.1, c.2, Flag.plain))
        (r := ents L p more ++ rest)
        (by
          intro e he
          obtain ⟨c, _, rfl⟩ := List.mem_map.1 he
          have : p ++ n ++ '!' :: c.1 = (p ++ n ++ ['!']) ++ c.1 := by simp
          simp only [this]
          exact isPrefixOf_append _ _)
        (by
          intro e he
          have hmem : e ∈ ents L p more ++ rest := List.mem_of_mem_head? he
          by_contra hc
          have hc : (p ++ n ++ ['!']).isPrefixOf e.1 = true := by simpa using hc
          rw [List.append_assoc] at hc
          obtain ⟨r, hr⟩ := prefix_elim hc
          have := hap1 e hmem _ hr
          rw [List.append_assoc, List.singleton_append, hd_bang h.1] at this
          simp at this)
      simp only [leafEnts, List.cons_append, undo, isPrefixOf_append, if_true, drop_append_self, hm,
        htw.1, htw.2]
      have : ((L.cols x).map fun c => (p ++ n ++ '!' :: c.1, c.2, Flag.plain)).map (fun e => e.2.1)
          = (L.cols x).map Prod.snd := by simp [Function.comp_def]
      rw [this, hL.load]
      simp only
      rw [set_of_notMem hnacc, h2]
      simp [Box.unsorted, Box.items]
  | nest n i b more ihb ih =>
    intro p m acc rest f hK hacc hap hf
    have hnacc : n ∉ keys acc := fun hk => hacc n hk (by rw [names_nest]; simp)
    have hap' : Apart p more.names rest := hap.mono (by rw [names_nest]; simp)
    have hap1 := apart_cons L h.2.2.2 h.2.1 hap
    have hnot : ∀ e ∈ ents L p more ++ rest, (p ++ (n ++ ['/'])).isPrefixOf e.1 = false := by
      intro e he
      by_contra hc
      have hc : (p ++ (n ++ ['/'])).isPrefixOf e.1 = true := by simpa using hc
      obtain ⟨r, hr⟩ := prefix_elim hc
      have := hap1 e he _ hr
      rw [List.append_assoc, List.singleton_append, hd_slash h.1] at this
      simp at this
    have hacc' : ∀ v : Node A S X, ∀ k ∈ keys (acc ++ [(n, v)]), k ∉ more.names := by
      intro v k hk
      rw [keys_append, List.mem_append] at hk
      rcases hk with hk | hk
      · exact fun h' => hacc k hk (by rw [names_nest]; simp [h'])
      · have : k = n := by simpa [keys] using hk
        rw [this]; exact h.2.1
    simp only [ents, List.append_assoc, List.cons_append, List.length_cons, List.length_append] at hf ⊢
    obtain ⟨f, rfl⟩ : ∃ g, f = g + 1 := ⟨f - 1, by omega⟩
    obtain ⟨f1, h1, h2⟩ := ihb h.2.2.1 (p ++ (n ++ ['/'])) (nestedMeta i (metasOf L b)) []
      (ents L p more ++ rest) f (nestedMeta_knows L i h.2.2.1) (by simp [keys])
      (by
        intro e he k hk
        have := hnot e he
        rw [hk, isPrefixOf_append] at this
        exact absurd this (by decide))
      (by simp; omega)
    have h3 : undo L f1 (p ++ (n ++ ['/'])) (nestedMeta i (metasOf L b)) ([] ++ b.unsorted.items)
        (ents L p more ++ rest) = some ((i.kept, b.unsorted), ents L p more ++ rest) := by
      have hb := buildClass_eq L i h.2.2.1 b.unsorted
      cases hE : ents L p more ++ rest with
      | nil => rw [undo_nil, hb]; rfl
      | cons e es =>
        have hne := hnot e (by rw [hE]; simp)
        rw [hE] at h1
        obtain ⟨f1, rfl⟩ : ∃ g, f1 = g + 1 := ⟨f1 - 1, by simp at h1; omega⟩
        obtain ⟨k, a, fl⟩ := e
        simp only at hne
        simp only [undo, hne, Bool.false_eq_true, if_false, hb, Option.map_some]
    obtain ⟨f', h4, h5⟩ := ih h.2.2.2 p m (acc ++ [(n, .box i.kept b.unsorted)]) rest f hK
        (hacc' _) hap' (by simp; omega)
    refine ⟨f', h4, ?_⟩
    simp only [undo, isPrefixOf_append, if_true, drop_append_self, hL.dec, h2, h3]
    rw [show (n ++ ['/']).dropLast = n by simp, set_of_notMem hnacc, h5]
    simp [Box.unsorted, Box.items, Info.kept]

/-- undoing the whole of what flattening writes -/
theorem undo_all (L : Lib A S X M) (hL : LibOK L) (i : Info) (b : Box A S X) (h : FlatNames b) :
    undo L (ents L [] b).length [] (nestedMeta i (metasOf L b)) [] (ents L [] b)
      = some ((i.kept, b.unsorted), []) := by
  obtain ⟨f', _, h2⟩ := undo_ents L hL b h [] (nestedMeta i (metasOf L b)) [] []
    (ents L [] b).length (nestedMeta_knows L i h) (by simp [keys]) (by intro e he; simp at he) (by simp)
  rw [List.append_nil] at h2
  rw [h2, undo_nil, buildClass_eq L i h]
  rfl

theorem zipWith_entries : ∀ l : List (Entry A),
    (toDict l).zipWith (fun p f => (p.1, p.2, f)) (flagsOf l) = l
  | [] => rfl
  | e :: l => by
    have := zipWith_entries l
    simp only [toDict, flagsOf, List.map_cons, List.zipWith_cons_cons] at this ⊢
    rw [this]

end Verif.Sds
