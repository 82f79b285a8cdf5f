import Verif.Sds.Spec
import Verif.Items.Dict

/-! Proof infrastructure: dictionaries filled with new names, names of flattened items. -/
namespace Verif.Sds
open Verif.Items (Dict Name)
open Verif.Items.Dict

variable {A S X M V : Type}

theorem keys_append (d d' : Dict Name V) : keys (d ++ d') = keys d ++ keys d' := by
  simp [keys]

theorem keys_cons (p : Name × V) (d : Dict Name V) : keys (p :: d) = p.1 :: keys d := rfl

theorem set_mid (pre post : Dict Name V) (n : Name) (v0 v : V) (h1 : n ∉ keys pre)
    (h2 : n ∉ keys post) : Dict.set (pre ++ (n, v0) :: post) n v = pre ++ (n, v) :: post := by
  have hm : n ∈ keys (pre ++ (n, v0) :: post) := by simp [keys]
  have aux : ∀ d : Dict Name V, n ∉ keys d → d.map (fun e => if e.1 = n then (n, v) else e) = d := by
    intro d hd
    conv => rhs; rw [← List.map_id d]
    refine List.map_congr_left fun e he => ?_
    have : e.1 ≠ n := fun h => hd (List.mem_map.2 ⟨e, he, h⟩)
    simp [this]
  rw [set_of_mem hm, List.map_append, List.map_cons, aux _ h1, aux _ h2]
  simp

/-- filling in new names appends them -/
theorem foldl_set_new (f : Name × V → Name) : ∀ (o d : Dict Name V), (o.map f).Nodup →
    (∀ k ∈ o.map f, k ∉ keys d) →
    o.foldl (fun (d : Dict Name V) (p : Name × V) => Dict.set d (f p) p.2) d
      = d ++ o.map fun p => (f p, p.2)
  | [], d, _, _ => by simp
  | p :: o, d, hn, hd => by
    rw [List.map_cons, List.nodup_cons] at hn
    have hp : f p ∉ keys d := hd _ (by simp)
    rw [List.foldl_cons, set_of_notMem hp, foldl_set_new f o _ hn.2]
    · simp
    · intro k hk
      rw [keys_append, List.mem_append, not_or]
      refine ⟨hd k (List.mem_cons_of_mem _ hk), ?_⟩
      simp only [keys, List.map_cons, List.map_nil, List.mem_singleton]
      rintro rfl
      exact hn.1 hk

theorem addAll_new (pre : Name) (d o : Dict Name A) (hn : (keys o).Nodup)
    (hd : ∀ k ∈ keys o, pre ++ k ∉ keys d) :
    addAll pre d o = d ++ o.map fun p => (pre ++ p.1, p.2) := by
  unfold addAll
  refine foldl_set_new (fun p => pre ++ p.1) o d ?_ ?_
  · have : o.map (fun p => pre ++ p.1) = (keys o).map (fun k => pre ++ k) := by simp [keys]
    rw [this]
    exact hn.map fun a b h => List.append_cancel_left h
  · intro k hk
    obtain ⟨p, hp, rfl⟩ := List.mem_map.1 hk
    exact hd p.1 (List.mem_map.2 ⟨p, hp, rfl⟩)

/-! ## Names -/

/-- the part of a flattened name before the first separator -/
def hd (k : Name) : Name := k.takeWhile fun c => c != '/' && c != '!'

theorem takeWhile_all {p : Char → Bool} : ∀ {n : Name}, (∀ c ∈ n, p c = true) → n.takeWhile p = n
  | [], _ => rfl
  | c :: n, h => by
    rw [List.takeWhile_cons_of_pos (h c (by simp)), takeWhile_all fun d hd => h d (by simp [hd])]

theorem takeWhile_stop {p : Char → Bool} {c : Char} (hc : p c = false) : ∀ {n : Name} (r : Name),
    (∀ c ∈ n, p c = true) → (n ++ c :: r).takeWhile p = n
  | [], r, _ => by simp [hc]
  | d :: n, r, h => by
    rw [List.cons_append, List.takeWhile_cons_of_pos (h d (by simp)),
      takeWhile_stop hc r fun e he => h e (by simp [he])]

theorem flatName_all {n : Name} (h : FlatName n) : ∀ c ∈ n, (c != '/' && c != '!') = true := by
  intro c hc
  have h1 : c ≠ '/' := fun e => h.2.1 (e ▸ hc)
  have h2 : c ≠ '!' := fun e => h.2.2 (e ▸ hc)
  simp [h1, h2]

theorem hd_self {n : Name} (h : FlatName n) : hd n = n := takeWhile_all (flatName_all h)
theorem hd_slash {n : Name} (h : FlatName n) (r : Name) : hd (n ++ '/' :: r) = n :=
  takeWhile_stop (by decide) r (flatName_all h)
theorem hd_bang {n : Name} (h : FlatName n) (r : Name) : hd (n ++ '!' :: r) = n :=
  takeWhile_stop (by decide) r (flatName_all h)

/-! ## What flattening is to write -/

/-- the arrays of one leaf -/
def leafEnts (L : Lib A S X M) (k : Name) : Leaf A S X → List (Entry A)
  | .arr a => [(k, a, .plain)]
  | .sc s => [(k, L.one s, .scalar)]
  | .spec x => (k, L.base x, .special) :: (L.cols x).map fun c => (k ++ '!' :: c.1, c.2, .plain)

/-- the meta data of the special items -/
def metasOf (L : Lib A S X M) : Box A S X → Dict Name M
  | .nil => []
  | .leaf n (.spec x) rest => (n, L.info x) :: metasOf L rest
  | .leaf _ _ rest => metasOf L rest
  | .nest _ _ _ rest => metasOf L rest

/-- all arrays with their flattened names, in order -/
def ents (L : Lib A S X M) : Name → Box A S X → List (Entry A)
  | _, .nil => []
  | p, .leaf n l rest => leafEnts L (p ++ n) l ++ ents L p rest
  | p, .nest n i b rest =>
      (p ++ (n ++ ['/']), L.enc (nestedMeta i (metasOf L b)), .nested) ::
        (ents L (p ++ (n ++ ['/'])) b ++ ents L p rest)

def epre (p : Name) (e : Entry A) : Entry A := (p ++ e.1, e.2)

theorem leafEnts_pre (L : Lib A S X M) (p k : Name) (l : Leaf A S X) :
    leafEnts L (p ++ k) l = (leafEnts L k l).map (epre p) := by
  cases l <;> simp [leafEnts, epre]

theorem ents_pre (L : Lib A S X M) : ∀ (b : Box A S X) (p q : Name),
    ents L (p ++ q) b = (ents L q b).map (epre p)
  | .nil, p, q => rfl
  | .leaf n l rest, p, q => by
    simp only [ents, List.map_append, List.append_assoc]
    rw [leafEnts_pre, ents_pre L rest p q]
  | .nest n i b rest, p, q => by
    simp only [ents, List.map_cons, List.map_append]
    rw [ents_pre L rest p q, List.append_assoc p q, ents_pre L b p]
    simp [epre]

theorem ents_eq (L : Lib A S X M) (b : Box A S X) (p : Name) :
    ents L p b = (ents L [] b).map (epre p) := by
  rw [← ents_pre L b p [], List.append_nil]

theorem names_leaf (n : Name) (l : Leaf A S X) (rest : Box A S X) :
    (Box.leaf n l rest).names = n :: rest.names := rfl
theorem names_nest (n : Name) (i : Info) (b rest : Box A S X) :
    (Box.nest n i b rest).names = n :: rest.names := rfl

/-- a flattened name begins with the name of an item -/
theorem hd_leafEnts (L : Lib A S X M) {n : Name} (hn : FlatName n) (l : Leaf A S X) :
    ∀ e ∈ leafEnts L n l, hd e.1 = n := by
  intro e he
  cases l with
  | arr a => simp only [leafEnts, List.mem_singleton] at he; subst he; exact hd_self hn
  | sc s => simp only [leafEnts, List.mem_singleton] at he; subst he; exact hd_self hn
  | spec x =>
    simp only [leafEnts, List.mem_cons, List.mem_map] at he
    rcases he with rfl | ⟨c, _, rfl⟩
    · exact hd_self hn
    · exact hd_bang hn _

theorem hd_ents (L : Lib A S X M) : ∀ {b : Box A S X}, FlatNames b → ∀ e ∈ ents L [] b, hd e.1 ∈ b.names
  | .nil, _, e, he => by simp [ents] at he
  | .leaf n l rest, h, e, he => by
    rw [names_leaf]
    simp only [ents, List.nil_append, List.mem_append] at he
    rcases he with he | he
    · rw [hd_leafEnts L h.1 l e he]; simp
    · exact List.mem_cons_of_mem _ (hd_ents L h.2.2.2 e he)
  | .nest n i b rest, h, e, he => by
    rw [names_nest]
    simp only [ents, List.nil_append, List.mem_cons, List.mem_append] at he
    rcases he with rfl | he | he
    · rw [show (n ++ ['/'] : Name) = n ++ '/' :: [] from rfl, hd_slash h.1]; simp
    · rw [ents_eq, List.mem_map] at he
      obtain ⟨e', _, rfl⟩ := he
      have : hd (epre (n ++ ['/']) e').1 = n := by
        have : (epre (n ++ ['/']) e').1 = n ++ '/' :: e'.1 := by simp [epre]
        rw [this, hd_slash h.1]
      rw [this]; simp
    · exact List.mem_cons_of_mem _ (hd_ents L h.2.2.2 e he)

/-- flattened names are not empty -/
theorem ents_ne_nil (L : Lib A S X M) {b : Box A S X} (h : FlatNames b) :
    ∀ e ∈ ents L [] b, e.1 ≠ [] := by
  induction b with
  | nil => intro e he; simp [ents] at he
  | leaf n l rest ih =>
    intro e he
    simp only [ents, List.nil_append, List.mem_append] at he
    rcases he with he | he
    · intro h0
      have := hd_leafEnts L h.1 l e he
      rw [h0] at this
      exact h.1.1 this.symm
    · exact ih h.2.2.2 e he
  | nest n i b rest _ ih =>
    intro e he
    simp only [ents, List.nil_append, List.mem_cons, List.mem_append] at he
    rcases he with rfl | he | he
    · simp
    · rw [ents_eq, List.mem_map] at he
      obtain ⟨e', _, rfl⟩ := he
      simp [epre]
    · exact ih h.2.2.2 e he

theorem leafEnts_nodup (L : Lib A S X M) (hL : LibOK L) (n : Name) (l : Leaf A S X) :
    ((leafEnts L n l).map Prod.fst).Nodup := by
  cases l with
  | arr a => simp [leafEnts]
  | sc s => simp [leafEnts]
  | spec x =>
    simp only [leafEnts, List.map_cons, List.map_map, List.nodup_cons]
    constructor
    · intro hm
      obtain ⟨c, _, hc⟩ := List.mem_map.1 hm
      have : (n ++ '!' :: c.1).length = n.length := by rw [show n ++ '!' :: c.1 = n from hc]
      simp at this
    · have : (L.cols x).map (Prod.fst ∘ fun c => (n ++ '!' :: c.1, c.2, Flag.plain))
          = ((L.cols x).map Prod.fst).map (fun k => n ++ '!' :: k) := by simp
      rw [this]
      refine (hL.cols x).map fun a b h => ?_
      have := List.append_cancel_left h
      exact (List.cons.inj this).2

/-- flattened names are all different -/
theorem ents_nodup (L : Lib A S X M) (hL : LibOK L) : ∀ {b : Box A S X}, FlatNames b →
    ((ents L [] b).map Prod.fst).Nodup
  | .nil, _ => by simp [ents]
  | .leaf n l rest, h => by
    simp only [ents, List.nil_append, List.map_append]
    refine List.nodup_append.2 ⟨leafEnts_nodup L hL n l, ents_nodup L hL h.2.2.2, ?_⟩
    intro a ha b hb e
    obtain ⟨e1, h1, rfl⟩ := List.mem_map.1 ha
    obtain ⟨e2, h2, rfl⟩ := List.mem_map.1 hb
    have := hd_ents L h.2.2.2 e2 h2
    rw [← e, hd_leafEnts L h.1 l e1 h1] at this
    exact h.2.2.1 this
  | .nest n i b rest, h => by
    have hpre : ∀ e ∈ ents L (n ++ ['/']) b, hd e.1 = n := by
      intro e he
      rw [ents_eq, List.mem_map] at he
      obtain ⟨e', _, rfl⟩ := he
      have : (epre (n ++ ['/']) e').1 = n ++ '/' :: e'.1 := by simp [epre]
      rw [this, hd_slash h.1]
    simp only [ents, List.nil_append, List.map_cons, List.map_append]
    rw [List.nodup_cons]
    constructor
    · intro hm
      rcases List.mem_append.1 hm with hm | hm
      · obtain ⟨e, he, h0⟩ := List.mem_map.1 hm
        rw [ents_eq, List.mem_map] at he
        obtain ⟨e', he', rfl⟩ := he
        have : e'.1 = [] := by
          have : (n ++ ['/']) ++ e'.1 = (n ++ ['/']) ++ [] := by simpa [epre] using h0
          exact List.append_cancel_left this
        exact ents_ne_nil L h.2.2.1 e' he' this
      · obtain ⟨e, he, h0⟩ := List.mem_map.1 hm
        have := hd_ents L h.2.2.2 e he
        rw [h0, show (n ++ ['/'] : Name) = n ++ '/' :: [] from rfl, hd_slash h.1] at this
        exact h.2.1 this
    · refine List.nodup_append.2 ⟨?_, ents_nodup L hL h.2.2.2, ?_⟩
      · rw [ents_eq, List.map_map]
        have : (ents L [] b).map (Prod.fst ∘ epre (n ++ ['/']))
            = ((ents L [] b).map Prod.fst).map (fun k => (n ++ ['/']) ++ k) := by
          rw [List.map_map]; rfl
        rw [this]
        exact (ents_nodup L hL h.2.2.1).map fun a b h => List.append_cancel_left h
      · intro a ha b hb e
        obtain ⟨e1, h1, rfl⟩ := List.mem_map.1 ha
        obtain ⟨e2, h2, rfl⟩ := List.mem_map.1 hb
        have := hd_ents L h.2.2.2 e2 h2
        rw [← e, hpre e1 h1] at this
        exact h.2.1 this

/-! ## Flattening writes that -/

def toDict (l : List (Entry A)) : Dict Name A := l.map fun e => (e.1, e.2.1)
def flagsOf (l : List (Entry A)) : List Flag := l.map fun e => e.2.2

theorem keys_toDict (l : List (Entry A)) : keys (toDict l) = l.map Prod.fst := by
  simp [keys, toDict, Function.comp_def]

theorem serialize_eq (L : Lib A S X M) (hL : LibOK L) (n : Name) (l : Leaf A S X) :
    serialize L n l = (toDict (leafEnts L n l), flagsOf (leafEnts L n l)) := by
  cases l with
  | arr a => rfl
  | sc s => rfl
  | spec x =>
    have hn := leafEnts_nodup L hL n (.spec x)
    simp only [leafEnts, List.map_cons, List.map_map, List.nodup_cons] at hn
    unfold serialize
    have := foldl_set_new (V := A) Prod.fst (colCells L n x) [(n, L.base x)]
      (by simpa [colCells, Function.comp_def] using hn.2)
      (by
        intro k hk hk'
        have hk' : k = n := by simpa [keys] using hk'
        subst hk'
        exact hn.1 (by simpa [colCells, Function.comp_def] using hk))
    simp only [this, leafEnts, toDict, flagsOf]
    simp [colCells, Function.comp_def]

theorem metasOf_keys (L : Lib A S X M) : ∀ (b : Box A S X), ∀ k ∈ keys (metasOf L b), k ∈ b.names
  | .nil, k, hk => by simp [metasOf, keys] at hk
  | .leaf n (.arr a) rest, k, hk => List.mem_cons_of_mem _ (metasOf_keys L rest k hk)
  | .leaf n (.sc s) rest, k, hk => List.mem_cons_of_mem _ (metasOf_keys L rest k hk)
  | .leaf n (.spec x) rest, k, hk => by
    rw [metasOf, keys_cons, List.mem_cons] at hk
    rw [names_leaf]
    rcases hk with rfl | hk
    · simp
    · exact List.mem_cons_of_mem _ (metasOf_keys L rest k hk)
  | .nest n i b rest, k, hk => List.mem_cons_of_mem _ (metasOf_keys L rest k hk)

/-- the invariant of `flatInto` -/
theorem flatInto_eq (L : Lib A S X M) (hL : LibOK L) (b : Box A S X) (h : FlatNames b)
    (st : Flat A M) (hd1 : ∀ e ∈ ents L [] b, e.1 ∉ keys st.d)
    (hm : ∀ k ∈ keys st.metas, k ∉ b.names) :
    flatInto L b st = ⟨st.d ++ toDict (ents L [] b), st.flags ++ flagsOf (ents L [] b),
      st.metas ++ metasOf L b⟩ := by
  induction b generalizing st with
  | nil => simp [flatInto, ents, toDict, flagsOf, metasOf]
  | leaf n l rest ih =>
    have hnod := ents_nodup L hL h
    simp only [ents, List.nil_append, List.map_append] at hnod
    obtain ⟨hn1, hn2, hn3⟩ := List.nodup_append.1 hnod
    have e1 : addAll [] st.d (toDict (leafEnts L n l)) = st.d ++ toDict (leafEnts L n l) := by
      rw [addAll_new]
      · simp
      · rw [keys_toDict]; exact hn1
      · intro k hk
        rw [keys_toDict] at hk
        obtain ⟨e, he, rfl⟩ := List.mem_map.1 hk
        exact hd1 e (by simp [ents, he])
    have hmets : ∃ ms, (flatLeaf L st n l) = ⟨st.d ++ toDict (leafEnts L n l),
        st.flags ++ flagsOf (leafEnts L n l), ms⟩ ∧ ms ++ metasOf L rest = st.metas ++ metasOf L (.leaf n l rest)
        ∧ ∀ k ∈ keys ms, k = n ∨ k ∈ keys st.metas := by
      unfold flatLeaf
      rw [serialize_eq L hL]
      simp only [e1]
      refine ⟨_, rfl, ?_, ?_⟩
      · cases l with
        | arr a => rfl
        | sc s => rfl
        | spec x =>
          have : n ∉ keys st.metas := fun hk => hm n hk (by rw [names_leaf]; simp)
          simp [set_of_notMem this, metasOf]
      · cases l with
        | arr a => exact fun k hk => Or.inr hk
        | sc s => exact fun k hk => Or.inr hk
        | spec x => exact fun k hk => (mem_keys_set _ _ _ _).1 hk
    obtain ⟨ms, h1, h2, h3⟩ := hmets
    rw [flatInto, h1, ih h.2.2.2]
    · simp [ents, toDict, flagsOf, h2]
    · intro e he hk
      rw [keys_append, List.mem_append] at hk
      rcases hk with hk | hk
      · exact hd1 e (by simp [ents, he]) hk
      · rw [keys_toDict] at hk
        exact hn3 e.1 hk e.1 (List.mem_map.2 ⟨e, he, rfl⟩) rfl
    · intro k hk hk'
      rcases h3 k hk with rfl | hk
      · exact h.2.2.1 hk'
      · exact hm k hk (by rw [names_leaf]; exact List.mem_cons_of_mem _ hk')
  | nest n i b rest ihb ih =>
    have hnod := ents_nodup L hL h
    simp only [ents, List.nil_append, List.map_cons, List.map_append, List.nodup_cons,
      List.mem_append, not_or] at hnod
    obtain ⟨⟨hn0, hn1⟩, hnod⟩ := hnod
    obtain ⟨hn2, hn3, hn4⟩ := List.nodup_append.1 hnod
    have hchild := ihb h.2.2.1 ⟨[], [], []⟩ (by simp [keys]) (by simp [keys])
    simp only [List.nil_append] at hchild
    have hk0 : n ++ ['/'] ∉ keys st.d := hd1 (n ++ ['/'], _, .nested) (by simp only [ents, List.nil_append, List.mem_cons]; exact Or.inl rfl)
    have e1 : (flatNest L st n i ⟨toDict (ents L [] b), flagsOf (ents L [] b), metasOf L b⟩) =
        ⟨st.d ++ toDict ((n ++ ['/'], L.enc (nestedMeta i (metasOf L b)), .nested) :: ents L (n ++ ['/']) b),
          st.flags ++ flagsOf ((n ++ ['/'], L.enc (nestedMeta i (metasOf L b)), .nested) :: ents L (n ++ ['/']) b),
          st.metas⟩ := by
      unfold flatNest
      rw [set_of_notMem hk0, addAll_new]
      · rw [ents_eq L b (n ++ ['/'])]
        simp [toDict, flagsOf, epre, Function.comp_def]
      · rw [keys_toDict]; exact ents_nodup L hL h.2.2.1
      · intro k hk hk'
        rw [keys_toDict] at hk
        obtain ⟨e, he, rfl⟩ := List.mem_map.1 hk
        have hmem : epre (n ++ ['/']) e ∈ ents L (n ++ ['/']) b := by
          rw [ents_eq]; exact List.mem_map.2 ⟨e, he, rfl⟩
        rw [keys_append, List.mem_append] at hk'
        rcases hk' with hk' | hk'
        · refine hd1 (epre (n ++ ['/']) e) ?_ hk'
          simp only [ents, List.nil_append, List.mem_cons, List.mem_append]
          exact Or.inr (Or.inl hmem)
        · have hk' : n ++ ['/'] ++ e.1 = n ++ ['/'] := by simpa [keys] using hk'
          exact hn0 (List.mem_map.2 ⟨_, hmem, hk'⟩)
    rw [flatInto, hchild, e1, ih h.2.2.2]
    · simp [ents, toDict, flagsOf, metasOf]
    · intro e he hk
      rw [keys_append, List.mem_append] at hk
      rcases hk with hk | hk
      · exact hd1 e (by simp [ents, he]) hk
      · rw [keys_toDict, List.map_cons, List.mem_cons] at hk
        rcases hk with hk | hk
        · exact hn1 (List.mem_map.2 ⟨e, he, hk⟩)
        · exact hn4 e.1 hk e.1 (List.mem_map.2 ⟨e, he, rfl⟩) rfl
    · intro k hk hk'
      exact hm k hk (by rw [names_nest]; exact List.mem_cons_of_mem _ hk')

end Verif.Sds
