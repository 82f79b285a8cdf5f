import Verif.Shape.Model
import Verif.Idx.Props
/-!
# `melt`: every value of the wide table is in the long one, beside its row's identifiers and its column's name
-/
namespace Verif.Shape
open Verif.Items (Dict)
open Verif.Idx (Err Table cell_eq_get getitem_answers getitem_table getitem_rows eraseDups_of_nodup get_length)

variable {V : Type}

theorem flatten_get {A : Type} (n : Nat) : ∀ (L : List (List A)), (∀ l ∈ L, l.length = n) → ∀ (k i : Nat), i < n →
    L.flatten[k * n + i]? = (L[k]?).bind fun (l : List A) => l[i]? := by
  intro L
  induction L with
  | nil => intro _ k i _; simp
  | cons l L ih =>
    intro h k i hi
    have hl := h l List.mem_cons_self
    cases k with
    | zero =>
      rw [List.flatten_cons, Nat.zero_mul, Nat.zero_add, List.getElem?_append_left (by omega)]
      rfl
    | succ k =>
      rw [List.flatten_cons, List.getElem?_append_right (by rw [hl, Nat.succ_mul]; omega), List.getElem?_cons_succ,
        ← ih (fun l' h' => h l' (List.mem_cons_of_mem _ h')) k i hi]
      congr 1
      rw [hl, Nat.succ_mul]; omega

theorem flatten_length {A : Type} (n : Nat) (L : List (List A)) (h : ∀ l ∈ L, l.length = n) : L.flatten.length = L.length * n := by
  induction L with
  | nil => simp
  | cons l L ih =>
    rw [List.flatten_cons, List.length_append, ih (fun l' h' => h l' (List.mem_cons_of_mem _ h')), h l List.mem_cons_self,
      List.length_cons, Nat.succ_mul, Nat.add_comm]

theorem tile_length (a : List V) (k : Nat) : (tile a k).length = k * a.length := by
  rw [tile, flatten_length a.length _ (fun l hl => by rw [List.eq_of_mem_replicate hl]), List.length_replicate]

theorem tile_get (a : List V) (k j i : Nat) (hj : j < k) (hi : i < a.length) : (tile a k)[j * a.length + i]? = a[i]? := by
  rw [tile, flatten_get a.length _ (fun l hl => by rw [List.eq_of_mem_replicate hl]) j i hi]
  simp [List.getElem?_replicate, hj]

theorem repeatEach_length (a : List V) (n : Nat) : (repeatEach a n).length = a.length * n := by
  rw [repeatEach, List.flatMap_def, flatten_length n _ (fun l hl => by
    obtain ⟨x, _, rfl⟩ := List.mem_map.1 hl; exact List.length_replicate), List.length_map]

theorem repeatEach_get (a : List V) (n k i : Nat) (hi : i < n) : (repeatEach a n)[k * n + i]? = a[k]? := by
  rw [repeatEach, List.flatMap_def, flatten_get n _ (fun l hl => by
    obtain ⟨x, _, rfl⟩ := List.mem_map.1 hl; exact List.length_replicate) k i hi, List.getElem?_map]
  cases a[k]? with
  | none => rfl
  | some x => simp [List.getElem?_replicate, hi]

/-- the dictionaries after the loop over the identifying columns -/
theorem meltIds_ok (k : Nat) : ∀ (ids : List String) (temp m : Table V), ids.Nodup → (Dict.keys temp).Nodup →
    (∀ c ∈ ids, c ∈ Dict.keys temp) → (∀ c ∈ ids, c ∉ Dict.keys m) →
    meltIds k ids temp m = .ok (temp.filter (fun (e : String × List V) => decide (e.1 ∉ ids)),
      m ++ ids.map fun (c : String) => (c, tile ((Dict.get temp c).getD []) k)) := by
  intro ids
  induction ids with
  | nil => intro temp m _ _ _ _; simp [meltIds]
  | cons c cs ih =>
    intro temp m hn ht hs hm
    rw [List.nodup_cons] at hn
    cases hg : Dict.get temp c with
    | none => exact absurd (hs c List.mem_cons_self) ((Dict.get_eq_none_iff temp c).1 hg)
    | some col =>
      have hne : ∀ c' ∈ cs, c' ≠ c := fun c' h e => hn.1 (e ▸ h)
      simp only [meltIds, hg]
      rw [ih (Dict.del temp c) _ hn.2 (Dict.nodup_del ht c) ?_ ?_]
      · congr 2
        · rw [Dict.del, List.filter_filter]
          apply List.filter_congr
          intro e _
          simp only [List.mem_cons, ne_eq]
          by_cases h1 : e.1 = c <;> by_cases h2 : e.1 ∈ cs <;> simp [h1, h2]
        · rw [Dict.set_of_notMem (hm c List.mem_cons_self), List.append_assoc, List.map_cons, hg]
          congr 1
          simp only [List.singleton_append, Option.getD_some]
          congr 1
          apply List.map_congr_left
          intro c' hc'
          rw [Dict.get_del, if_neg (hne c' hc')]
      · intro c' hc'
        rw [Dict.keys_del, List.mem_filter]
        exact ⟨hs c' (List.mem_cons_of_mem _ hc'), by simpa using hne c' hc'⟩
      · intro c' hc' hmem
        rw [Dict.mem_keys_set] at hmem
        rcases hmem with h | h
        · exact hne c' hc' h
        · exact hm c' (List.mem_cons_of_mem _ hc') h

/-- a repeated or missing identifying column raises -/
theorem meltIds_error (k : Nat) : ∀ (ids : List String) (temp m : Table V), ¬ (ids.Nodup ∧ ∀ c ∈ ids, c ∈ Dict.keys temp) →
    meltIds k ids temp m = .error .keyError := by
  intro ids
  induction ids with
  | nil => intro temp m h; exact absurd ⟨List.nodup_nil, by simp⟩ h
  | cons c cs ih =>
    intro temp m h
    simp only [meltIds]
    cases hg : Dict.get temp c with
    | none => rfl
    | some col =>
      apply ih
      rintro ⟨h1, h2⟩
      have hc : c ∈ Dict.keys temp := List.mem_map_of_mem (Dict.mem_of_get hg)
      apply h
      refine ⟨List.nodup_cons.2 ⟨fun hmem => ?_, h1⟩, ?_⟩
      · have := h2 c hmem
        rw [Dict.keys_del, List.mem_filter] at this
        simp at this
      · intro c' hc'
        rcases List.mem_cons.1 hc' with rfl | h'
        · exact hc
        · have := h2 c' h'
          rw [Dict.keys_del, List.mem_filter] at this
          exact this.1

variable [DecidableEq V]

theorem erase_filter (ids vs : List String) : ((ids ++ vs).eraseDups).filter (fun c => decide (c ∉ ids)) =
    (vs.filter fun c => decide (c ∉ ids)).eraseDups := by
  rw [List.eraseDups_append, List.filter_append]
  have h1 : ids.eraseDups.filter (fun c => decide (c ∉ ids)) = [] := by
    rw [List.filter_eq_nil_iff]
    intro a ha
    have : a ∈ ids := List.mem_eraseDups.1 ha
    simpa using this
  have h2 : vs.removeAll ids = vs.filter fun c => decide (c ∉ ids) := by
    unfold List.removeAll
    apply List.filter_congr
    intro a _
    by_cases h : a ∈ ids <;> simp [h]
  rw [h1, h2, List.nil_append, List.filter_eq_self]
  intro a ha
  have := List.mem_eraseDups.1 ha
  exact (List.mem_filter.1 this).2

/-- the columns `melt` works on -/
theorem meltInput_ok (inv : V) (t : Table V) (n : Nat) (ht : Rect t n) (labels ids : List String) (vals : Option (List String))
    (hids : ∀ c ∈ ids, c ∈ t.map Prod.fst) (hvs : ∀ vs, vals = some vs → ∀ c ∈ vs, c ∈ t.map Prod.fst)
    (hne : valueCols (t.map Prod.fst) ids vals ≠ []) : ∃ temp, meltInput inv t n labels ids vals = .ok temp ∧ Rect temp n ∧
      (∀ c ∈ ids, c ∈ temp.map Prod.fst) ∧
      (temp.map Prod.fst).filter (fun c => decide (c ∉ ids)) = valueCols (t.map Prod.fst) ids vals ∧
      ∀ c ∈ temp.map Prod.fst, ∀ (i : Nat), cell temp c i = cell t c i := by
  cases vals with
  | none => exact ⟨t, rfl, ht, hids, rfl, fun _ _ _ => rfl⟩
  | some vs =>
    have hmem : ∀ c ∈ ids ++ vs, c ∈ t.map Prod.fst := by
      intro c hc
      rcases List.mem_append.1 hc with h | h
      · exact hids c h
      · exact hvs vs rfl c h
    have hnil : ids ++ vs ≠ [] := by
      intro h
      rw [List.append_eq_nil_iff] at h
      apply hne
      rw [h.2]; rfl
    obtain ⟨t', h1, h2, h3⟩ := getitem_answers inv t n ht labels none (.names (ids ++ vs)) (ids ++ vs) ((List.range n).map some) hnil rfl
      hmem trivial rfl
    have hkeys : ∀ c ∈ t'.map Prod.fst, c ∈ ids ++ vs := by
      intro c hc; rw [h2] at hc; exact List.mem_eraseDups.1 hc
    have hne' : t' ≠ [] := by
      rintro rfl
      obtain ⟨a, ha⟩ := List.exists_mem_of_ne_nil _ hnil
      have := List.mem_eraseDups.2 ha
      rw [← h2] at this
      simp at this
    obtain ⟨cs, _, _, _, h4⟩ := getitem_table inv t n ht labels none (.names (ids ++ vs)) t' h1
    obtain ⟨L, hL, hrect, _⟩ := h4 hne'
    have hL' : L = (List.range n).map some := hL
    rw [hL', List.length_map, List.length_range] at hrect
    refine ⟨t', ?_, hrect, ?_, ?_, ?_⟩
    · simp only [meltInput, h1]
    · intro c hc
      rw [h2]
      exact List.mem_eraseDups.2 (List.mem_append_left _ hc)
    · rw [h2, erase_filter]; rfl
    · intro c hc i
      rw [h3 c (hkeys c hc) i, List.getElem?_map]
      by_cases hi : i < n
      · rw [List.getElem?_range hi]; rfl
      · rw [List.getElem?_eq_none (by simpa using hi)]
        have : cell t c i = none := by
          rw [cell_eq_get]
          cases hg : Dict.get t c with
          | none => rfl
          | some col => rw [Option.bind_some, List.getElem?_eq_none (by rw [get_length ht hg]; omega)]
        simp [this]

/-- **C74** `melt`: one row for every row of the table and every column that is not an identifier, holding the identifiers of the row,
the name of the column and the value. The identifying columns must exist and not be repeated; the new names must not be those of
identifying columns, nor the same. -/
theorem melt_long (inv : V) (str : String → V) (t : Table V) (n : Nat) (ht : Rect t n) (labels ids : List String)
    (vals : Option (List String)) (varName : Option String) (valueName : String) (hn : ids.Nodup) (hids : ∀ c ∈ ids, c ∈ t.map Prod.fst)
    (hvs : ∀ vs, vals = some vs → ∀ c ∈ vs, c ∈ t.map Prod.fst) (hne : valueCols (t.map Prod.fst) ids vals ≠ [])
    (h1 : varName.getD "variable" ∉ ids) (h2 : valueName ∉ ids) (h3 : varName.getD "variable" ≠ valueName) :
    ∃ t', melt inv str t n labels ids vals varName valueName none = .ok t' ∧
      IsLong str t n ids (valueCols (t.map Prod.fst) ids vals) (varName.getD "variable") valueName t' := by
  obtain ⟨temp, e1, hrt, hidt, hkeys, hcell⟩ := meltInput_ok inv t n ht labels ids vals hids hvs hne
  generalize hW : valueCols (t.map Prod.fst) ids vals = W at *
  generalize hvn : varName.getD "variable" = vn at *
  have hlen : temp.length - ids.length = W.length := by
    have hp : (temp.map Prod.fst).filter (fun c => decide (c ∈ ids)) |>.Perm ids := by
      rw [List.perm_ext_iff_of_nodup (hrt.1.filter _) hn]
      intro a
      rw [List.mem_filter]
      constructor
      · intro h; simpa using h.2
      · intro h; exact ⟨hidt a h, by simpa using h⟩
    have := List.length_eq_length_filter_add (l := temp.map Prod.fst) (fun c => decide (c ∈ ids))
    rw [hp.length_eq, List.length_map] at this
    have h' : ((temp.map Prod.fst).filter (fun c => !decide (c ∈ ids))) = W := by
      rw [← hkeys]; apply List.filter_congr; intro a _; simp
    rw [h'] at this
    omega
  have e2 := meltIds_ok W.length ids temp [] hn hrt.1 hidt (by simp [Dict.keys])
  set rest := temp.filter (fun (e : String × List V) => decide (e.1 ∉ ids)) with hrest
  have hrk : rest.map Prod.fst = W := by
    rw [← hkeys, hrest, List.filter_map]; rfl
  have hrne : rest ≠ [] := by
    intro h; rw [h] at hrk; exact hne hrk.symm
  have hrl : rest.length = W.length := by rw [← hrk, List.length_map]
  have hrall : ∀ l ∈ rest.map Prod.snd, l.length = n := by
    intro l hl
    obtain ⟨e, he, rfl⟩ := List.mem_map.1 hl
    exact hrt.2 e (List.mem_filter.1 he).1
  set idm := ids.map fun (c : String) => (c, tile ((Dict.get temp c).getD []) W.length) with hidm
  have hidk : Dict.keys idm = ids := by rw [hidm, Dict.keys, List.map_map]; exact List.map_id _
  have hset1 : Dict.set idm vn (repeatEach ((Dict.keys rest).map str) n) = idm ++ [(vn, repeatEach ((Dict.keys rest).map str) n)] :=
    Dict.set_of_notMem (by rw [hidk]; exact h1) _
  have hk1 : Dict.keys (idm ++ [(vn, repeatEach ((Dict.keys rest).map str) n)]) = ids ++ [vn] := by
    rw [Dict.keys, List.map_append]; rw [Dict.keys] at hidk; rw [hidk]; rfl
  have hset2 : Dict.set (idm ++ [(vn, repeatEach ((Dict.keys rest).map str) n)]) valueName (rest.map Prod.snd).flatten =
      idm ++ [(vn, repeatEach ((Dict.keys rest).map str) n)] ++ [(valueName, (rest.map Prod.snd).flatten)] :=
    Dict.set_of_notMem (by rw [hk1]; simp [h2, Ne.symm h3]) _
  refine ⟨idm ++ [(vn, repeatEach ((Dict.keys rest).map str) n)] ++ [(valueName, (rest.map Prod.snd).flatten)], ?_, ?_⟩
  · simp only [melt, e1, bind, Except.bind, hlen, e2, List.nil_append, if_neg hrne, pure, Except.pure, hvn]
    rw [hset1, hset2]
  · have hnames : (idm ++ [(vn, repeatEach ((Dict.keys rest).map str) n)] ++ [(valueName, (rest.map Prod.snd).flatten)]).map Prod.fst =
        ids ++ [vn, valueName] := by
      rw [List.map_append]
      rw [Dict.keys] at hk1
      rw [hk1]; simp
    have hnd : (ids ++ [vn, valueName]).Nodup := by
      rw [List.nodup_append]
      refine ⟨hn, by simp [h3], ?_⟩
      intro a ha b hb hab
      subst hab
      simp at hb
      rcases hb with rfl | rfl
      · exact h1 ha
      · exact h2 ha
    set R := idm ++ [(vn, repeatEach ((Dict.keys rest).map str) n)] ++ [(valueName, (rest.map Prod.snd).flatten)] with hR
    have hgid : ∀ c ∈ ids, Dict.get R c = some (tile ((Dict.get temp c).getD []) W.length) := by
      intro c hc
      apply Dict.get_of_mem (by rw [Dict.keys, hnames]; exact hnd)
      rw [hR, hidm]
      simp only [List.mem_append, List.mem_map]
      exact Or.inl (Or.inl ⟨c, hc, rfl⟩)
    have hgv : Dict.get R vn = some (repeatEach ((Dict.keys rest).map str) n) :=
      Dict.get_of_mem (by rw [Dict.keys, hnames]; exact hnd) (by rw [hR]; simp)
    have hgx : Dict.get R valueName = some (rest.map Prod.snd).flatten :=
      Dict.get_of_mem (by rw [Dict.keys, hnames]; exact hnd) (by rw [hR]; simp)
    have hcol : ∀ c ∈ ids, ∃ col, Dict.get temp c = some col ∧ col.length = n := by
      intro c hc
      cases hg : Dict.get temp c with
      | none => exact absurd (hidt c hc) ((Dict.get_eq_none_iff temp c).1 hg)
      | some col => exact ⟨col, rfl, get_length hrt hg⟩
    have hWget : ∀ (k : Nat) (v : String), W[k]? = some v → ∃ col, rest[k]? = some (v, col) ∧ Dict.get temp v = some col := by
      intro k v hk
      rw [← hrk, List.getElem?_map] at hk
      cases hr : rest[k]? with
      | none => rw [hr] at hk; simp at hk
      | some e =>
        rw [hr] at hk
        simp at hk
        subst hk
        refine ⟨e.2, rfl, Dict.get_of_mem hrt.1 ?_⟩
        exact (List.mem_filter.1 (List.mem_of_getElem? hr)).1
    refine ⟨hnames, ⟨by rw [hnames]; exact hnd, ?_⟩, ?_, ?_, ?_⟩
    · intro e he
      rw [hR] at he
      simp only [List.mem_append, List.mem_singleton] at he
      rcases he with (he | rfl) | rfl
      · rw [hidm] at he
        obtain ⟨c, hc, rfl⟩ := List.mem_map.1 he
        obtain ⟨col, g1, g2⟩ := hcol c hc
        rw [tile_length, g1, Option.getD_some, g2]
      · rw [repeatEach_length, List.length_map, Dict.keys, List.length_map, hrl]
      · rw [flatten_length n _ hrall, List.length_map, hrl]
    · intro k i v c hk hi hc
      obtain ⟨col, g1, g2⟩ := hcol c hc
      have hkl : k < W.length := (List.getElem?_eq_some_iff.1 hk).1
      rw [cell_eq_get, hgid c hc, Option.bind_some, g1, Option.getD_some, ← hcell c (hidt c hc) i, cell_eq_get, g1, Option.bind_some]
      subst g2
      exact tile_get col W.length k i hkl hi
    · intro k i v hk hi
      rw [cell_eq_get, hgv, Option.bind_some, repeatEach_get _ n k i hi, List.getElem?_map, Dict.keys, hrk, hk]; rfl
    · intro k i v hk hi
      obtain ⟨col, g1, g2⟩ := hWget k v hk
      have hv : v ∈ temp.map Prod.fst := List.mem_map_of_mem (Dict.mem_of_get g2)
      rw [cell_eq_get, hgx, Option.bind_some, flatten_get n _ hrall k i hi, List.getElem?_map, g1, ← hcell v hv i, cell_eq_get, g2]
      rfl

/-- **C74** The exceptions of `melt`: a missing or repeated identifying column, a missing value column, and no value column at all raise. -/
theorem melt_raises (inv : V) (str : String → V) (t : Table V) (n : Nat) (ht : Rect t n) (labels ids : List String)
    (vals : Option (List String)) (varName : Option String) (valueName : String) (trim : Option (V → Bool))
    (h : ¬ (ids.Nodup ∧ (∀ c ∈ ids, c ∈ t.map Prod.fst) ∧ (∀ vs, vals = some vs → ∀ c ∈ vs, c ∈ t.map Prod.fst) ∧
      valueCols (t.map Prod.fst) ids vals ≠ [])) : ∃ e, melt inv str t n labels ids vals varName valueName trim = .error e := by
  have key : ∀ temp, meltInput inv t n labels ids vals = .ok temp → (∀ c ∈ temp.map Prod.fst, c ∈ t.map Prod.fst) ∧
      (∀ vs, vals = some vs → ∀ c ∈ vs, c ∈ t.map Prod.fst) ∧ (temp.map Prod.fst).Nodup ∧
      (temp.map Prod.fst).filter (fun c => decide (c ∉ ids)) = valueCols (t.map Prod.fst) ids vals := by
    intro temp hm
    cases vals with
    | none =>
      simp only [meltInput, Except.ok.injEq] at hm
      subst hm
      exact ⟨fun c hc => hc, by simp, ht.1, rfl⟩
    | some vs =>
      simp only [meltInput] at hm
      split at hm
      · rename_i t' hg
        cases hm
        obtain ⟨cs, g1, g2, g3, g4⟩ := getitem_table inv t n ht labels none (.names (ids ++ vs)) temp hg
        have g1' : cs = ids ++ vs := g1
        subst g1'
        refine ⟨fun c hc => ?_, ?_, ?_, ?_⟩
        · rw [g3] at hc; exact g2 c (List.mem_eraseDups.1 hc)
        · intro vs' e c hc; cases e; exact g2 c (List.mem_append_right _ hc)
        · by_cases hne : temp = []
          · subst hne; simp
          · obtain ⟨L, _, g5, _⟩ := g4 hne; exact g5.1
        · rw [g3, erase_filter]; rfl
      · simp at hm
      · simp at hm
  simp only [melt, bind, Except.bind]
  cases hm : meltInput inv t n labels ids vals with
  | error e => exact ⟨e, rfl⟩
  | ok temp =>
    obtain ⟨k1, k2, k3, k4⟩ := key temp hm
    by_cases hids : ids.Nodup ∧ ∀ c ∈ ids, c ∈ Dict.keys temp
    · have hnil : valueCols (t.map Prod.fst) ids vals = [] := by
        by_contra hne
        exact h ⟨hids.1, fun c hc => k1 c (hids.2 c hc), k2, hne⟩
      dsimp only
      rw [meltIds_ok _ ids temp [] hids.1 k3 hids.2 (by simp [Dict.keys])]
      dsimp only
      have : temp.filter (fun (e : String × List V) => decide (e.1 ∉ ids)) = [] := by
        rw [← List.map_eq_nil_iff (f := Prod.fst), ← hnil, ← k4, List.filter_map]; rfl
      rw [if_pos this]
      exact ⟨_, rfl⟩
    · dsimp only
      rw [meltIds_error _ ids temp [] hids]
      exact ⟨_, rfl⟩

/-- **C74** `melt(trim=True)`: the rows of the long table whose value is neither zero nor NaN, in the same order. -/
theorem melt_trim (inv : V) (str : String → V) (t : Table V) (n : Nat) (labels ids : List String)
    (vals : Option (List String)) (varName : Option String) (valueName : String) (bad : V → Bool) (m : Table V) (rows : Nat)
    (hr : Rect m rows) (h : melt inv str t n labels ids vals varName valueName none = .ok m) :
    ∃ t', melt inv str t n labels ids vals varName valueName (some bad) = .ok t' ∧ t'.map Prod.fst = m.map Prod.fst ∧
      ∀ c ∈ m.map Prod.fst, Verif.Idx.ColFrom inv m t' ((goodRows bad m valueName rows).map some) c := by
  simp only [melt, bind, Except.bind] at h ⊢
  cases hm : meltInput inv t n labels ids vals with
  | error e => rw [hm] at h; simp at h
  | ok temp =>
    rw [hm] at h
    dsimp only at h ⊢
    cases hi : meltIds (temp.length - ids.length) ids temp [] with
    | error e => rw [hi] at h; simp at h
    | ok p =>
      rw [hi] at h
      obtain ⟨rest, mi⟩ := p
      dsimp only at h ⊢
      by_cases hne : rest = []
      · rw [if_pos hne] at h; simp at h
      · rw [if_neg hne] at h ⊢
        simp only [pure, Except.pure, Except.ok.injEq] at h ⊢
        subst h
        set st := (rest.map Prod.snd).flatten with hst
        set m := Dict.set (Dict.set mi (varName.getD "variable") (repeatEach ((Dict.keys rest).map str) n)) valueName st with hm'
        have hget : Dict.get m valueName = some st := by rw [hm', Dict.get_set, if_pos rfl]
        have hlen : st.length = rows := get_length hr hget
        rw [hlen]
        have hrows : goodRows bad m valueName rows = Verif.Idx.trueRows (st.map fun (x : V) => !bad x) := by
          rw [goodRows, Verif.Idx.trueRows, List.length_map, hlen]
          apply List.filter_congr
          intro i _
          rw [cell_eq_get, hget, Option.bind_some, List.getElem?_map]
          cases st[i]? with
          | none => simp
          | some x => simp
        obtain ⟨t', g1, g2, g3⟩ := getitem_rows inv m rows hr [] (some (.boolArr (st.map fun (x : V) => !bad x)))
          ((goodRows bad m valueName rows).map some) trivial ⟨by rw [List.length_map, hlen], by rw [hrows]⟩
        rw [g1]
        exact ⟨t', rfl, g2, g3⟩

/-- **C74** (counterexample to `melt_long` without its conditions on names) an identifying column called `value` is overwritten: the
identifiers are lost and no exception is raised. -/
theorem melt_name_counterexample : melt "" id [("value", ["x", "y"]), ("a", ["1", "2"])] 2 [] ["value"] none none "value" none =
    .ok [("value", ["1", "2"]), ("variable", ["a", "a"])] := by decide +kernel

/-- a table with two value columns -/
example : melt "" id [("k", ["x", "y"]), ("a", ["1", "2"]), ("b", ["3", ""])] 2 [] ["k"] none none "value" none =
    .ok [("k", ["x", "y", "x", "y"]), ("variable", ["a", "a", "b", "b"]), ("value", ["1", "2", "3", ""])] := by decide +kernel

example : melt "" id [("k", ["x", "y"]), ("a", ["1", "2"]), ("b", ["3", ""])] 2 [] ["k"] none none "value" (some (· == "")) =
    .ok [("k", ["x", "y", "x"]), ("variable", ["a", "a", "b"]), ("value", ["1", "2", "3"])] := by decide +kernel

example : ∃ t', melt "" id [("k", ["x", "y"]), ("a", ["1", "2"]), ("b", ["3", "4"])] 2 [] ["k"] (some ["b", "a"]) none "value" none = .ok t' ∧
    IsLong id [("k", ["x", "y"]), ("a", ["1", "2"]), ("b", ["3", "4"])] 2 ["k"] ["b", "a"] "variable" "value" t' :=
  melt_long "" id [("k", ["x", "y"]), ("a", ["1", "2"]), ("b", ["3", "4"])] 2 (by simp [Rect]) [] ["k"] (some ["b", "a"]) none "value"
    (by simp) (by simp) (by simp) (by decide) (by simp) (by simp) (by simp)

end Verif.Shape
