import Verif.Matlab.Model
import Mathlib.Data.List.Nodup
/-! # Turning matlab columns into Categoricals: properties (C347 - C350) -/
namespace Verif.Matlab
open Spec

/-! ## Texts -/

/-- **C350** Texts lose exactly the spaces at their end. -/
theorem rstrip_exact (s t : Text) : rstrip s = t ↔ TrimOf s t := by
  have hsplit : ∀ l : Text, ∃ n, l = List.replicate n ' ' ++ l.dropWhile (fun c => c == ' ') ∧
      (l.dropWhile fun c => c == ' ').head? ≠ some ' ' := by
    intro l
    induction l with
    | nil => exact ⟨0, by simp, by simp⟩
    | cons c l ih =>
      obtain ⟨n, h1, h2⟩ := ih
      by_cases hc : c = ' '
      · refine ⟨n + 1, ?_, ?_⟩
        · rw [List.dropWhile_cons, if_pos (by simp [hc]), List.replicate_succ, List.cons_append, ← h1, hc]
        · rw [List.dropWhile_cons, if_pos (by simp [hc])]
          exact h2
      · refine ⟨0, ?_, ?_⟩
        · rw [List.dropWhile_cons, if_neg (by simp [hc])]
          simp
        · rw [List.dropWhile_cons, if_neg (by simp [hc])]
          simpa using hc
  constructor
  · rintro rfl
    obtain ⟨n, h1, h2⟩ := hsplit s.reverse
    refine ⟨n, ?_, ?_⟩
    · have := congrArg List.reverse h1
      rw [List.reverse_reverse, List.reverse_append, List.reverse_replicate] at this
      exact this
    · unfold rstrip
      rw [List.getLast?_reverse]
      exact h2
  · rintro ⟨n, rfl, hl⟩
    unfold rstrip
    rw [List.reverse_append, List.reverse_replicate]
    have : ∀ (n : Nat) (l : Text), l.head? ≠ some ' ' → (List.replicate n ' ' ++ l).dropWhile (fun c => c == ' ') = l := by
      intro n l hl
      induction n with
      | zero =>
        cases l with
        | nil => rfl
        | cons c l =>
          have : c ≠ ' ' := by simpa using hl
          simp [List.dropWhile_cons, this]
      | succ n ih => simpa [List.replicate_succ] using ih
    rw [this n t.reverse (by rw [List.head?_reverse]; exact hl), List.reverse_reverse]

theorem shown_as (cfg : Cfg) (xtra : List (Name × List Text)) :
    ShownAs cfg.strip xtra (xtra.map fun kt => (kt.1, shown cfg kt.2)) := by
  unfold ShownAs
  rw [List.forall₂_map_right_iff]
  refine List.forall₂_same.mpr fun kt _ => ⟨rfl, ?_⟩
  cases hs : cfg.strip
  · simp [shown, hs]
  · simp only [if_pos, shown, hs]
    rw [List.forall₂_map_right_iff]
    exact List.forall₂_same.mpr fun s _ => (rstrip_exact s _).mp rfl

/-! ## The steps -/

theorem get_mem (cols : Cols) (hn : (names cols).Nodup) (n : Name) (v : Val) : get cols n = some v ↔ (n, v) ∈ cols := by
  induction cols with
  | nil => simp [get]
  | cons c cs ih =>
    simp only [names, List.map_cons, List.nodup_cons] at hn
    unfold get
    rw [List.find?_cons]
    by_cases hc : c.1 = n
    · rw [show (c.1 == n) = true by simpa using hc]
      simp only [Option.map_some, Option.some.injEq, List.mem_cons]
      constructor
      · rintro rfl
        left
        rw [← hc]
      · rintro (h | h)
        · rw [← h]
        · exfalso
          apply hn.1
          rw [hc]
          exact List.mem_map.mpr ⟨(n, v), h, rfl⟩
    · rw [show (c.1 == n) = false by simpa using hc]
      have := ih hn.2
      unfold get at this
      simp only [List.mem_cons]
      rw [this]
      constructor
      · exact Or.inr
      · rintro (h | h)
        · exact absurd (by rw [← h]) hc
        · exact h

theorem get_none' (cols : Cols) (n : Name) (h : get cols n = none) (v : Val) : (n, v) ∉ cols := by
  intro hm
  unfold get at h
  rw [Option.map_eq_none_iff, List.find?_eq_none] at h
  have := h _ hm
  simp at this

theorem setVal_map (n : Name) (v : Val) (cols : Cols) (hn : (names cols).Nodup) (hm : n ∈ names cols) :
    setVal n v cols = cols.map fun c => if c.1 = n then (n, v) else c := by
  induction cols with
  | nil => simp [names] at hm
  | cons c cs ih =>
    simp only [names, List.map_cons, List.nodup_cons] at hn
    simp only [setVal, List.map_cons]
    by_cases hc : c.1 = n
    · rw [if_pos hc, if_pos hc]
      congr 1
      have : ∀ c' ∈ cs, (if c'.1 = n then (n, v) else c') = c' := by
        intro c' hc'
        refine if_neg fun h => hn.1 ?_
        rw [hc, ← h]
        exact List.mem_map.mpr ⟨c', hc', rfl⟩
      rw [List.map_congr_left this, List.map_id']
    · rw [if_neg hc, if_neg hc, ih hn.2 ?_]
      simp only [names, List.map_cons, List.mem_cons] at hm
      rcases hm with h | h
      · exact absurd h.symm hc
      · exact h

/-! ## The prefix kept -/

/-- the conversion of one column by one array of texts -/
def keepStep (cfg : Cfg) (c : Name × Val) (kt : Name × List Text) : Name × Val :=
  match c.2 with
  | .idx codes => if c.1 = cfg.pre ++ kt.1 then (c.1, .cat codes (shown cfg kt.2)) else c
  | _ => c

theorem keepStep_name (cfg : Cfg) (c : Name × Val) (kt : Name × List Text) : (keepStep cfg c kt).1 = c.1 := by
  unfold keepStep
  split
  · by_cases h : c.1 = cfg.pre ++ kt.1
    · rw [if_pos h]
    · rw [if_neg h]
  · rfl

theorem keepStep_other (cfg : Cfg) (c : Name × Val) (kt : Name × List Text) : (keepStep cfg c kt).2 = .other ↔ c.2 = .other := by
  unfold keepStep
  split
  · next codes h =>
    by_cases h' : c.1 = cfg.pre ++ kt.1
    · rw [if_pos h', h]
      simp
    · rw [if_neg h']
  · rfl

theorem one_keep (cfg : Cfg) (hk : cfg.keep = true) (cols : Cols) (hn : (names cols).Nodup) (k : Name) (texts : List Text)
    (hm : cfg.method (cfg.pre ++ k) = false) (ho : (cfg.pre ++ k, Val.other) ∉ cols) :
    one cfg cols k texts = (cols.map fun c => keepStep cfg c (k, texts), false) := by
  unfold one
  rw [hm, if_neg (by simp)]
  have hid : (∀ codes, (cfg.pre ++ k, Val.idx codes) ∉ cols) → (cols.map fun c => keepStep cfg c (k, texts)) = cols := by
    intro hno
    have : ∀ c ∈ cols, keepStep cfg c (k, texts) = c := by
      intro c hc
      unfold keepStep
      split
      · next codes h =>
        refine if_neg fun h' => hno codes ?_
        have : c = (cfg.pre ++ k, Val.idx codes) := Prod.ext h' h
        rw [← this]
        exact hc
      · rfl
    rw [List.map_congr_left this, List.map_id']
  cases hg : get cols (cfg.pre ++ k) with
  | none => 
    simp only
    rw [hid fun codes => get_none' cols _ hg _]
  | some v =>
    cases v with
    | other => exact absurd ((get_mem cols hn _ _).mp hg) ho
    | cat cs ns =>
      simp only
      rw [hid]
      intro codes hc
      have := (get_mem cols hn _ _).mpr hc
      rw [hg] at this
      simp at this
    | idx codes =>
      simp only
      rw [if_pos hk]
      have hmem := (get_mem cols hn _ _).mp hg
      rw [setVal_map _ _ cols hn (List.mem_map.mpr ⟨_, hmem, rfl⟩)]
      congr 1
      apply List.map_congr_left
      intro c hc
      by_cases h : c.1 = cfg.pre ++ k
      · rw [if_pos h]
        have h2 : c.2 = .idx codes := by
          have : (cfg.pre ++ k, c.2) ∈ cols := by rw [← h]; exact hc
          have := (get_mem cols hn _ _).mpr this
          rw [hg] at this
          exact (Option.some.inj this).symm
        unfold keepStep
        rw [h2]
        simp only
        rw [if_pos h, h]
      · rw [if_neg h]
        unfold keepStep
        split
        · rw [if_neg h]
        · rfl

theorem convert_keep (cfg : Cfg) (hk : cfg.keep = true) (xtra : List (Name × List Text)) (cols : Cols) (hn : (names cols).Nodup)
    (hm : ∀ kt ∈ xtra, cfg.method (cfg.pre ++ kt.1) = false) (ho : ∀ kt ∈ xtra, (cfg.pre ++ kt.1, Val.other) ∉ cols) :
    convert cfg xtra cols = (cols.map fun c => xtra.foldl (keepStep cfg) c, false) := by
  induction xtra generalizing cols with
  | nil => simp [convert]
  | cons kt rest ih =>
    obtain ⟨k, texts⟩ := kt
    simp only [convert]
    rw [one_keep cfg hk cols hn k texts (hm (k, texts) (by simp)) (ho (k, texts) (by simp))]
    simp only
    rw [ih]
    · rw [List.map_map]
      rfl
    · have : names (cols.map fun c => keepStep cfg c (k, texts)) = names cols := by
        unfold names
        rw [List.map_map]
        exact List.map_congr_left fun c _ => keepStep_name cfg c (k, texts)
      rw [this]
      exact hn
    · exact fun kt h => hm kt (by simp [h])
    · intro kt h hc
      obtain ⟨c, hc, he⟩ := List.mem_map.mp hc
      apply ho kt (by simp [h])
      have h1 : c.1 = cfg.pre ++ kt.1 := by rw [← keepStep_name cfg c (k, texts), he]
      have h2 : c.2 = .other := (keepStep_other cfg c (k, texts)).mp (by rw [he])
      rw [← h1, ← h2]
      exact hc

theorem fold_kept (cfg : Cfg) (xtra : List (Name × List Text)) (hx : (xtra.map Prod.fst).Nodup) (c : Name × Val) :
    Kept cfg.pre (xtra.map fun kt => (kt.1, shown cfg kt.2)) c (xtra.foldl (keepStep cfg) c) := by
  induction xtra generalizing c with
  | nil => exact ⟨rfl, Or.inr ⟨by simp, rfl⟩⟩
  | cons kt rest ih =>
    simp only [List.map_cons, List.nodup_cons] at hx
    rw [List.foldl_cons]
    obtain ⟨h1, h2⟩ := ih hx.2 (keepStep cfg c kt)
    refine ⟨h1.trans (keepStep_name cfg c kt), ?_⟩
    by_cases hh : ∃ codes, c.2 = .idx codes ∧ c.1 = cfg.pre ++ kt.1
    · obtain ⟨codes, hi, hp⟩ := hh
      have hs : keepStep cfg c kt = (c.1, .cat codes (shown cfg kt.2)) := by
        unfold keepStep
        rw [hi]
        simp only
        rw [if_pos hp]
      left
      refine ⟨kt.1, shown cfg kt.2, codes, by simp, hp, hi, ?_⟩
      rcases h2 with ⟨k, ns, cs, _, _, h, _⟩ | ⟨_, h⟩
      · rw [hs] at h
        cases h
      · rw [h, hs]
    · have hs : keepStep cfg c kt = c := by
        unfold keepStep
        split
        · next codes h => exact if_neg fun hp => hh ⟨codes, h, hp⟩
        · rfl
      rw [hs] at h2
      rw [hs]
      rcases h2 with ⟨k, ns, cs, a, b, d, e⟩ | ⟨a, b⟩
      · exact Or.inl ⟨k, ns, cs, by rw [List.map_cons]; exact List.mem_cons_of_mem _ a, b, d, e⟩
      · right
        refine ⟨fun k ns cs hmem hp hi => ?_, b⟩
        rw [List.map_cons, List.mem_cons] at hmem
        rcases hmem with he | he
        · exact hh ⟨cs, hi, by rw [hp, (Prod.mk.inj he).1]⟩
        · exact a k ns cs he hp hi

/-- **C347** With the prefix kept every column stays in its place under its name. -/
theorem keep_exact (cfg : Cfg) (hk : cfg.keep = true) (xtra : List (Name × List Text)) (hx : (xtra.map Prod.fst).Nodup) (cols : Cols)
    (hn : (names cols).Nodup) (hm : ∀ kt ∈ xtra, cfg.method (cfg.pre ++ kt.1) = false)
    (ho : ∀ kt ∈ xtra, (cfg.pre ++ kt.1, Val.other) ∉ cols) :
    ∃ texts cols', ShownAs cfg.strip xtra texts ∧ convert cfg xtra cols = (cols', false) ∧
      List.Forall₂ (Kept cfg.pre texts) cols cols' := by
  refine ⟨_, _, shown_as cfg xtra, convert_keep cfg hk xtra cols hn hm ho, ?_⟩
  rw [List.forall₂_map_right_iff]
  exact List.forall₂_same.mpr fun c _ => fold_kept cfg xtra hx c

/-- **C347** Doing it again changes nothing. -/
theorem keep_twice (cfg : Cfg) (hk : cfg.keep = true) (xtra : List (Name × List Text)) (hx : (xtra.map Prod.fst).Nodup) (cols : Cols)
    (hn : (names cols).Nodup) (hm : ∀ kt ∈ xtra, cfg.method (cfg.pre ++ kt.1) = false)
    (ho : ∀ kt ∈ xtra, (cfg.pre ++ kt.1, Val.other) ∉ cols) :
    convert cfg xtra (convert cfg xtra cols).1 = convert cfg xtra cols := by
  have hname : ∀ (x : List (Name × List Text)) (c : Name × Val), (x.foldl (keepStep cfg) c).1 = c.1 := by
    intro x
    induction x with
    | nil => exact fun c => rfl
    | cons kt x ih =>
      intro c
      rw [List.foldl_cons, ih, keepStep_name]
  rw [convert_keep cfg hk xtra cols hn hm ho]
  have hn' : (names (cols.map fun c => xtra.foldl (keepStep cfg) c)).Nodup := by
    have : names (cols.map fun c => xtra.foldl (keepStep cfg) c) = names cols := by
      unfold names
      rw [List.map_map]
      exact List.map_congr_left fun c _ => hname xtra c
    rw [this]
    exact hn
  rw [convert_keep cfg hk xtra _ hn' hm ?_]
  · rw [List.map_map]
    congr 1
    apply List.map_congr_left
    intro c _
    have h1 := fold_kept cfg xtra hx c
    have h2 := fold_kept cfg xtra hx (xtra.foldl (keepStep cfg) c)
    refine Prod.ext h2.1 ?_
    rcases h2.2 with ⟨k, ns, cs, a, b, d, e⟩ | ⟨_, b⟩
    · exfalso
      rcases h1.2 with ⟨_, _, _, _, _, _, e'⟩ | ⟨a', b'⟩
      · rw [e'] at d
        cases d
      · rw [b'] at d
        exact a' k ns cs a (by rw [← h1.1]; exact b) d
    · exact b
  · intro kt hkt hc
    obtain ⟨c, hc, he⟩ := List.mem_map.mp hc
    have h1 := fold_kept cfg xtra hx c
    rw [he] at h1
    rcases h1.2 with ⟨_, _, _, _, _, _, e'⟩ | ⟨_, b'⟩
    · cases e'
    · apply ho kt hkt
      have hc1 : c.1 = cfg.pre ++ kt.1 := h1.1.symm
      have hc2 : c.2 = Val.other := b'.symm
      rw [← hc1, ← hc2]
      exact hc

/-! ## The prefix dropped -/

/-- there are indices under the name with the prefix -/
def conv (cfg : Cfg) (cols : Cols) (k : Name) : Bool :=
  match get cols (cfg.pre ++ k) with
  | some (.idx _) => true
  | _ => false

theorem conv_iff (cfg : Cfg) (cols : Cols) (hn : (names cols).Nodup) (k : Name) :
    conv cfg cols k = true ↔ ∃ codes, Indices cols (cfg.pre ++ k) codes := by
  unfold conv Indices
  constructor
  · intro h
    split at h
    · next codes hg => exact ⟨codes, (get_mem cols hn _ _).mp hg⟩
    · cases h
  · rintro ⟨codes, hc⟩
    rw [(get_mem cols hn _ _).mpr hc]

/-- the indices as a Categorical -/
def toCat (v : Val) (texts : List Text) : Val :=
  match v with
  | .idx codes => .cat codes texts
  | v => v

/-- what one array of texts does to a column -/
def dropStep (cfg : Cfg) (k : Name) (texts : List Text) (c : Name × Val) : Option (Name × Val) :=
  if c.1 = k then none else if c.1 = cfg.pre ++ k then some (k, toCat c.2 (shown cfg texts)) else some c

theorem one_drop (cfg : Cfg) (hk : cfg.keep = false) (cols : Cols) (hn : (names cols).Nodup) (k : Name) (texts : List Text)
    (hv : cfg.valid k = true) (hp : k ≠ cfg.pre ++ k)
    (hm : cfg.method (cfg.pre ++ k) = false) (ho : (cfg.pre ++ k, Val.other) ∉ cols) :
    one cfg cols k texts = (if conv cfg cols k then cols.filterMap (dropStep cfg k texts) else cols, false) := by
  unfold one conv
  rw [hm, if_neg (by simp)]
  cases hg : get cols (cfg.pre ++ k) with
  | none => rfl
  | some v =>
    cases v with
    | other => exact absurd ((get_mem cols hn _ _).mp hg) ho
    | cat cs ns => rfl
    | idx codes =>
      simp only [hk, Bool.false_eq_true, if_false, if_true]
      have hmem := (get_mem cols hn _ _).mp hg
      have hdel : k ∉ names (del cols k) := by
        intro h
        obtain ⟨c, hc, he⟩ := List.mem_map.mp h
        have := (List.mem_filter.mp hc).2
        simp [he] at this
      have hin : cfg.pre ++ k ∈ names (del cols k) := by
        refine List.mem_map.mpr ⟨_, List.mem_filter.mpr ⟨hmem, ?_⟩, rfl⟩
        exact bne_iff_ne.mpr fun h => hp h.symm
      have hr : rename cfg (del cols k) (cfg.pre ++ k) k =
          some ((del cols k).map fun c => if c.1 = cfg.pre ++ k then (k, c.2) else c) := by
        unfold rename
        rw [if_neg fun h => hp h.symm, hv, if_neg (by simp), if_neg (by simpa using hin), if_neg (by simpa using hdel)]
      rw [hr]
      simp only
      have hn1 : (names (del cols k)).Nodup := hn.sublist (List.Sublist.map _ List.filter_sublist)
      have hn2 : (names ((del cols k).map fun c => if c.1 = cfg.pre ++ k then (k, c.2) else c)).Nodup := by
        have : names ((del cols k).map fun c => if c.1 = cfg.pre ++ k then (k, c.2) else c) =
            (names (del cols k)).map fun n => if n = cfg.pre ++ k then k else n := by
          unfold names
          rw [List.map_map, List.map_map]
          apply List.map_congr_left
          intro c _
          simp only [Function.comp]
          by_cases h : c.1 = cfg.pre ++ k
          · rw [if_pos h, if_pos h]
          · rw [if_neg h, if_neg h]
        rw [this]
        refine List.Nodup.map_on ?_ hn1
        intro a ha b hb hab
        by_cases h1 : a = cfg.pre ++ k
        · by_cases h2 : b = cfg.pre ++ k
          · rw [h1, h2]
          · rw [if_pos h1, if_neg h2] at hab
            exact absurd (hab ▸ hb) hdel
        · by_cases h2 : b = cfg.pre ++ k
          · rw [if_neg h1, if_pos h2] at hab
            exact absurd (hab ▸ ha) hdel
          · rw [if_neg h1, if_neg h2] at hab
            exact hab
      rw [setVal_map _ _ _ hn2 ?_]
      · congr 1
        rw [List.map_map]
        unfold del
        rw [← List.filterMap_eq_map, List.filterMap_filter]
        apply List.filterMap_congr
        intro c hc
        unfold dropStep
        by_cases h1 : c.1 = k
        · simp [h1]
        · rw [if_neg h1, if_pos (by simpa using h1)]
          simp only [Function.comp]
          by_cases h2 : c.1 = cfg.pre ++ k
          · rw [if_pos h2, if_pos h2, if_pos rfl]
            have : c.2 = .idx codes := by
              have : (cfg.pre ++ k, c.2) ∈ cols := by rw [← h2]; exact hc
              have := (get_mem cols hn _ _).mpr this
              rw [hg] at this
              exact (Option.some.inj this).symm
            rw [this]
            rfl
          · rw [if_neg h2, if_neg h2, if_neg h1]
      · refine List.mem_map.mpr ⟨(k, .idx codes), List.mem_map.mpr ⟨(cfg.pre ++ k, .idx codes), ?_, by rw [if_pos rfl]⟩, rfl⟩
        exact List.mem_filter.mpr ⟨hmem, bne_iff_ne.mpr fun h => hp h.symm⟩

/-- what all arrays of texts do to a column -/
def endUp (cfg : Cfg) (cv : Name → Bool) (xtra : List (Name × List Text)) (c : Name × Val) : Option (Name × Val) :=
  if xtra.any (fun kt => kt.1 == c.1 && cv kt.1) then none
  else match xtra.find? (fun kt => cfg.pre ++ kt.1 == c.1 && cv kt.1) with
    | some kt => some (kt.1, toCat c.2 (shown cfg kt.2))
    | none => some c

theorem find_congr' {α : Type} (p q : α → Bool) (l : List α) (h : ∀ a ∈ l, p a = q a) : l.find? p = l.find? q := by
  induction l with
  | nil => rfl
  | cons a l ih =>
    rw [List.find?_cons, List.find?_cons, h a (by simp), ih fun b hb => h b (by simp [hb])]

theorem any_congr' {α : Type} (p q : α → Bool) (l : List α) (h : ∀ a ∈ l, p a = q a) : l.any p = l.any q := by
  induction l with
  | nil => rfl
  | cons a l ih =>
    rw [List.any_cons, List.any_cons, h a (by simp), ih fun b hb => h b (by simp [hb])]

theorem endUp_congr (cfg : Cfg) (cv cv' : Name → Bool) (xtra : List (Name × List Text)) (h : ∀ kt ∈ xtra, cv kt.1 = cv' kt.1)
    (c : Name × Val) : endUp cfg cv xtra c = endUp cfg cv' xtra c := by
  unfold endUp
  rw [any_congr' _ (fun kt => kt.1 == c.1 && cv' kt.1) xtra fun kt hkt => by simp only [h kt hkt],
    find_congr' _ (fun kt => cfg.pre ++ kt.1 == c.1 && cv' kt.1) xtra fun kt hkt => by simp only [h kt hkt]]

theorem dropStep_mem (cfg : Cfg) (k : Name) (texts : List Text) (cols : Cols) (n : Name) (v : Val) (h1 : n ≠ k)
    (h2 : n ≠ cfg.pre ++ k) : (n, v) ∈ cols.filterMap (dropStep cfg k texts) ↔ (n, v) ∈ cols := by
  rw [List.mem_filterMap]
  unfold dropStep
  constructor
  · rintro ⟨c, hc, he⟩
    by_cases a : c.1 = k
    · rw [if_pos a] at he
      cases he
    · rw [if_neg a] at he
      by_cases b : c.1 = cfg.pre ++ k
      · rw [if_pos b] at he
        exact absurd (congrArg Prod.fst (Option.some.inj he)).symm h1
      · rw [if_neg b] at he
        rw [← Option.some.inj he]
        exact hc
  · intro h
    exact ⟨(n, v), h, by rw [if_neg h1, if_neg h2]⟩

theorem dropStep_names (cfg : Cfg) (k : Name) (texts : List Text) (cols : Cols) (hn : (names cols).Nodup) :
    (names (cols.filterMap (dropStep cfg k texts))).Nodup := by
  induction cols with
  | nil => simp [names]
  | cons c cs ih =>
    simp only [names, List.map_cons, List.nodup_cons] at hn
    have ih := ih hn.2
    rw [List.filterMap_cons]
    by_cases a : c.1 = k
    · rw [show dropStep cfg k texts c = none by unfold dropStep; rw [if_pos a]]
      exact ih
    · have hfresh : ∀ n, n ∈ names (cs.filterMap (dropStep cfg k texts)) →
          (n = k ∧ cfg.pre ++ k ∈ names cs) ∨ (n ≠ k ∧ n ≠ cfg.pre ++ k ∧ n ∈ names cs) := by
        intro n hnm
        obtain ⟨d, hd, rfl⟩ := List.mem_map.mp hnm
        obtain ⟨e, he, hde⟩ := List.mem_filterMap.mp hd
        unfold dropStep at hde
        by_cases x : e.1 = k
        · rw [if_pos x] at hde
          cases hde
        · rw [if_neg x] at hde
          by_cases y : e.1 = cfg.pre ++ k
          · rw [if_pos y] at hde
            left
            rw [← Option.some.inj hde]
            exact ⟨rfl, by rw [← y]; exact List.mem_map.mpr ⟨e, he, rfl⟩⟩
          · rw [if_neg y] at hde
            right
            rw [← Option.some.inj hde]
            exact ⟨x, y, List.mem_map.mpr ⟨e, he, rfl⟩⟩
      by_cases b : c.1 = cfg.pre ++ k
      · rw [show dropStep cfg k texts c = some (k, toCat c.2 (shown cfg texts)) by
          unfold dropStep; rw [if_neg a, if_pos b]]
        simp only [names, List.map_cons, List.nodup_cons]
        refine ⟨fun h => ?_, ih⟩
        rcases hfresh k h with h | h
        · apply hn.1
          rw [b]
          exact h.2
        · exact h.1 rfl
      · rw [show dropStep cfg k texts c = some c by unfold dropStep; rw [if_neg a, if_neg b]]
        simp only [names, List.map_cons, List.nodup_cons]
        refine ⟨fun h => ?_, ih⟩
        rcases hfresh c.1 h with h | h
        · exact a h.1
        · exact hn.1 h.2.2

theorem convert_drop (cfg : Cfg) (hk : cfg.keep = false) (xtra : List (Name × List Text)) (hx : (xtra.map Prod.fst).Nodup) (cols : Cols)
    (hn : (names cols).Nodup) (hv : ∀ kt ∈ xtra, cfg.valid kt.1 = true) (hp : ∀ a ∈ xtra, ∀ b ∈ xtra, a.1 ≠ cfg.pre ++ b.1)
    (hm : ∀ kt ∈ xtra, cfg.method (cfg.pre ++ kt.1) = false) (ho : ∀ kt ∈ xtra, (cfg.pre ++ kt.1, Val.other) ∉ cols) :
    convert cfg xtra cols = (cols.filterMap (endUp cfg (conv cfg cols) xtra), false) := by
  induction xtra generalizing cols with
  | nil =>
    have : cols.filterMap (endUp cfg (conv cfg cols) []) = cols := by
      rw [show endUp cfg (conv cfg cols) [] = some from funext fun c => rfl]
      exact List.filterMap_some
    rw [this]
    rfl
  | cons kt rest ih =>
    obtain ⟨k, texts⟩ := kt
    simp only [List.map_cons, List.nodup_cons] at hx
    simp only [convert]
    rw [one_drop cfg hk cols hn k texts (hv (k, texts) (by simp)) (hp (k, texts) (by simp) (k, texts) (by simp)) (hm (k, texts) (by simp))
      (ho (k, texts) (by simp))]
    simp only
    have hv' : ∀ kt ∈ rest, cfg.valid kt.1 = true := fun kt h => hv kt (by simp [h])
    have hp' : ∀ a ∈ rest, ∀ b ∈ rest, a.1 ≠ cfg.pre ++ b.1 := fun a ha b hb => hp a (by simp [ha]) b (by simp [hb])
    have hm' : ∀ kt ∈ rest, cfg.method (cfg.pre ++ kt.1) = false := fun kt h => hm kt (by simp [h])
    have hne : ∀ kt ∈ rest, kt.1 ≠ k := fun kt h he => hx.1 (List.mem_map.mpr ⟨kt, h, he⟩)
    cases hc : conv cfg cols k with
    | false =>
      simp only [Bool.false_eq_true, if_false]
      rw [ih hx.2 cols hn hv' hp' hm' fun kt h => ho kt (by simp [h])]
      congr 1
      apply List.filterMap_congr
      intro c _
      unfold endUp
      simp only [List.any_cons, List.find?_cons, hc, Bool.and_false, Bool.false_or]
    | true =>
      simp only [if_true]
      have hn1 := dropStep_names cfg k texts cols hn
      have hsep : ∀ kt ∈ rest, cfg.pre ++ kt.1 ≠ k ∧ cfg.pre ++ kt.1 ≠ cfg.pre ++ k := by
        intro kt h
        exact ⟨fun he => hp (k, texts) (by simp) kt (by simp [h]) he.symm, fun he => hne kt h (List.append_cancel_left he)⟩
      rw [ih hx.2 _ hn1 hv' hp' hm' fun kt h hcm =>
        ho kt (by simp [h]) ((dropStep_mem cfg k texts cols _ _ (hsep kt h).1 (hsep kt h).2).mp hcm)]
      congr 1
      rw [List.filterMap_filterMap]
      apply List.filterMap_congr
      intro c _
      have hcv : ∀ kt ∈ rest, conv cfg (cols.filterMap (dropStep cfg k texts)) kt.1 = conv cfg cols kt.1 := by
        intro kt h
        rw [Bool.eq_iff_iff, conv_iff _ _ hn1, conv_iff _ _ hn]
        unfold Indices
        constructor
        · rintro ⟨cs, hcs⟩
          exact ⟨cs, (dropStep_mem cfg k texts cols _ _ (hsep kt h).1 (hsep kt h).2).mp hcs⟩
        · rintro ⟨cs, hcs⟩
          exact ⟨cs, (dropStep_mem cfg k texts cols _ _ (hsep kt h).1 (hsep kt h).2).mpr hcs⟩
      have hany : ∀ d : Name × Val, (∀ kt ∈ rest, kt.1 ≠ d.1) → (rest.any fun kt => kt.1 == d.1 && conv cfg cols kt.1) = false := by
        intro d hd
        rw [List.any_eq_false]
        intro kt h
        simp [hd kt h]
      have hfind : ∀ d : Name × Val, (∀ kt ∈ rest, cfg.pre ++ kt.1 ≠ d.1) →
          (rest.find? fun kt => cfg.pre ++ kt.1 == d.1 && conv cfg cols kt.1) = none := by
        intro d hd
        rw [List.find?_eq_none]
        intro kt h
        simp [hd kt h]
      by_cases h1 : c.1 = k
      · rw [show dropStep cfg k texts c = none by unfold dropStep; rw [if_pos h1]]
        unfold endUp
        rw [if_pos (by simp [h1, hc])]
        rfl
      · by_cases h2 : c.1 = cfg.pre ++ k
        · rw [show dropStep cfg k texts c = some (k, toCat c.2 (shown cfg texts)) by
            unfold dropStep; rw [if_neg h1, if_pos h2]]
          simp only [Option.bind_some]
          rw [endUp_congr cfg _ _ rest hcv]
          unfold endUp
          rw [if_neg, hfind (k, toCat c.2 (shown cfg texts)) fun kt h => (hsep kt h).1]
          · rw [if_neg]
            · rw [List.find?_cons_of_pos (by simp [h2, hc])]
            · rw [List.any_cons, hany c fun kt h he =>
                hp kt (by simp [h]) (k, texts) (by simp) (he.trans h2)]
              rw [show ((k, texts).1 == c.1) = false from beq_eq_false_iff_ne.mpr fun h => h1 h.symm]
              simp
          · rw [hany (k, toCat c.2 (shown cfg texts)) fun kt h => hne kt h]
            simp
        · rw [show dropStep cfg k texts c = some c by unfold dropStep; rw [if_neg h1, if_neg h2]]
          simp only [Option.bind_some]
          rw [endUp_congr cfg _ _ rest hcv]
          unfold endUp
          rw [List.any_cons, List.find?_cons_of_neg (by
            rw [Bool.and_eq_true, beq_iff_eq]
            exact fun h => h2 h.1.symm)]
          rw [show ((k, texts).1 == c.1) = false from beq_eq_false_iff_ne.mpr fun h => h1 h.symm, Bool.false_and, Bool.false_or]

open Classical in
/-- **C348** With the prefix dropped every column stays in its place, but those whose names are taken go. -/
theorem drop_exact (cfg : Cfg) (hk : cfg.keep = false) (xtra : List (Name × List Text)) (hx : (xtra.map Prod.fst).Nodup) (cols : Cols)
    (hn : (names cols).Nodup) (hv : ∀ kt ∈ xtra, cfg.valid kt.1 = true) (hp : ∀ a ∈ xtra, ∀ b ∈ xtra, a.1 ≠ cfg.pre ++ b.1)
    (hm : ∀ kt ∈ xtra, cfg.method (cfg.pre ++ kt.1) = false) (ho : ∀ kt ∈ xtra, (cfg.pre ++ kt.1, Val.other) ∉ cols) :
    ∃ texts cols', ShownAs cfg.strip xtra texts ∧ convert cfg xtra cols = (cols', false) ∧
      List.Forall₂ (Dropped cfg.pre texts) (cols.filter fun c => ¬ Replaced cfg.pre xtra cols c.1) cols' := by
  refine ⟨_, _, shown_as cfg xtra, convert_drop cfg hk xtra hx cols hn hv hp hm ho, ?_⟩
  have hrep : ∀ c : Name × Val, (xtra.any fun kt => kt.1 == c.1 && conv cfg cols kt.1) = true ↔ Replaced cfg.pre xtra cols c.1 := by
    intro c
    rw [List.any_eq_true]
    unfold Replaced
    constructor
    · rintro ⟨kt, hkt, h⟩
      rw [Bool.and_eq_true, beq_iff_eq] at h
      obtain ⟨codes, hc⟩ := (conv_iff cfg cols hn kt.1).mp h.2
      exact ⟨kt.2, codes, by rw [← h.1]; exact hkt, by rw [← h.1]; exact hc⟩
    · rintro ⟨ns, codes, hkt, hc⟩
      exact ⟨_, hkt, by rw [Bool.and_eq_true, beq_iff_eq]; exact ⟨rfl, (conv_iff cfg cols hn c.1).mpr ⟨codes, hc⟩⟩⟩
  have key : ∀ l : Cols, (∀ c ∈ l, c ∈ cols) →
      List.Forall₂ (Dropped cfg.pre (xtra.map fun kt => (kt.1, shown cfg kt.2)))
        (l.filter fun c => ¬ Replaced cfg.pre xtra cols c.1) (l.filterMap (endUp cfg (conv cfg cols) xtra)) := by
    intro l
    induction l with
    | nil => exact fun _ => List.Forall₂.nil
    | cons c l ih =>
      intro hl
      have ih := ih fun d hd => hl d (by simp [hd])
      rw [List.filter_cons, List.filterMap_cons]
      by_cases hr : Replaced cfg.pre xtra cols c.1
      · rw [if_neg (by simpa using hr)]
        rw [show endUp cfg (conv cfg cols) xtra c = none by unfold endUp; rw [if_pos ((hrep c).mpr hr)]]
        exact ih
      · rw [if_pos (by simpa using hr)]
        have hnr : ¬ (xtra.any fun kt => kt.1 == c.1 && conv cfg cols kt.1) = true := fun h => hr ((hrep c).mp h)
        cases hf : xtra.find? (fun kt => cfg.pre ++ kt.1 == c.1 && conv cfg cols kt.1) with
        | none =>
          rw [show endUp cfg (conv cfg cols) xtra c = some c by unfold endUp; rw [if_neg hnr, hf]]
          refine List.Forall₂.cons (Or.inr ⟨?_, rfl⟩) ih
          intro k ns codes hmem hpk hi
          obtain ⟨kt, hkt, he⟩ := List.mem_map.mp hmem
          have hk1 : kt.1 = k := (Prod.mk.inj he).1
          have := List.find?_eq_none.mp hf kt hkt
          apply this
          rw [Bool.and_eq_true, beq_iff_eq]
          refine ⟨by rw [hk1, hpk], (conv_iff cfg cols hn _).mpr ⟨codes, ?_⟩⟩
          unfold Indices
          rw [hk1, ← hpk, ← hi]
          exact hl c (by simp)
        | some kt =>
          rw [show endUp cfg (conv cfg cols) xtra c = some (kt.1, toCat c.2 (shown cfg kt.2)) by unfold endUp; rw [if_neg hnr, hf]]
          refine List.Forall₂.cons (Or.inl ?_) ih
          have h1 := List.find?_some hf
          rw [Bool.and_eq_true, beq_iff_eq] at h1
          obtain ⟨codes, hc⟩ := (conv_iff cfg cols hn kt.1).mp h1.2
          have hi : c.2 = .idx codes := by
            have ha : (cfg.pre ++ kt.1, c.2) ∈ cols := by rw [h1.1]; exact hl c (by simp)
            have hb := (get_mem cols hn _ _).mpr ha
            have hd := (get_mem cols hn _ _).mpr hc
            rw [hb] at hd
            exact Option.some.inj hd
          refine ⟨kt.1, shown cfg kt.2, codes, List.mem_map.mpr ⟨kt, List.mem_of_find?_eq_some hf, rfl⟩, h1.1.symm, hi, ?_⟩
          rw [hi]
          rfl
  exact key cols fun _ h => h

/-! ## Cases -/

/-- settings with the prefix `p`, where `pop` is a method and `pass` a keyword -/
def std (keep : Bool) : Cfg where
  pre := ['p']
  keep := keep
  strip := true
  method := fun n => n == ['p', 'o', 'p']
  valid := fun n => n != ['p', 'o', 'p'] && n != ['p', 'a', 's', 's']
  cap := fun n => match n with | [] => [] | c :: cs => c.toUpper :: cs.map Char.toLower

/-- symbols and their indices, a column in the way and one of another kind -/
def quotes : Cols := [(['s', 'y', 'm'], .other), (['p', 's', 'y', 'm'], .idx [1, 2, 1]), (['q'], .other)]

def symbols : List (Name × List Text) := [(['s', 'y', 'm'], [['A', ' '], ['B', ' ', 'C', ' ']])]

example : convert (std true) symbols quotes =
    ([(['s', 'y', 'm'], .other), (['p', 's', 'y', 'm'], .cat [1, 2, 1] [['A'], ['B', ' ', 'C']]), (['q'], .other)], false) := by
  decide +kernel

example : convert (std false) symbols quotes =
    ([(['s', 'y', 'm'], .cat [1, 2, 1] [['A'], ['B', ' ', 'C']]), (['q'], .other)], false) := by decide +kernel

/-- the hypotheses of `keep_exact` and `drop_exact` hold for them -/
example : (names quotes).Nodup ∧ (symbols.map Prod.fst).Nodup ∧
    (∀ kt ∈ symbols, (std true).method ((std true).pre ++ kt.1) = false) ∧
    (∀ kt ∈ symbols, ((std true).pre ++ kt.1, Val.other) ∉ quotes) ∧ (∀ kt ∈ symbols, (std false).valid kt.1 = true) ∧
    ∀ a ∈ symbols, ∀ b ∈ symbols, a.1 ≠ (std false).pre ++ b.1 := by decide +kernel

/-- **C349** Texts called `op` raise, as `pop` is a method: texts after them are not used. -/
theorem method_counterexample :
    convert (std true) [(['o', 'p'], [['X']]), (['s', 'y', 'm'], [['A'], ['B']])] quotes = (quotes, true) := by decide +kernel

/-- **C349** Texts called `px` and `x`: the Categorical of the first takes the place of the indices of the second. -/
theorem overlap_counterexample :
    convert (std false) [(['p', 'x'], [['L']]), (['x'], [['M']])] [(['p', 'p', 'x'], .idx [1]), (['p', 'x'], .idx [1])] =
      ([(['p', 'x'], .cat [1] [['L']])], false) := by decide +kernel

/-- **C349** A name that is a method is given a capital letter, which raises if there is such a column. -/
theorem taken_counterexample :
    (convert (std false) [(['p', 'o', 'p'], [['L']])] [(['p', 'p', 'o', 'p'], .idx [1]), (['P', 'o', 'p'], .other)]).2 = true ∧
    convert (std false) [(['p', 'o', 'p'], [['L']])] [(['p', 'p', 'o', 'p'], .idx [1])] = ([(['P', 'o', 'p'], .cat [1] [['L']])], false) := by
  decide +kernel

/-- **C349** With an empty prefix dropped the Categorical goes to the end. -/
theorem empty_prefix_counterexample :
    convert { std false with pre := [] } [(['x'], [['L']])] [(['x'], .idx [1]), (['y'], .other)] =
      ([(['y'], .other), (['x'], .cat [1] [['L']])], false) := by decide +kernel

/-- **C350** Texts are told apart by their spaces at the end only if these are kept. -/
theorem same_texts_counterexample : rstrip ['A', ' '] = rstrip ['A'] := by decide +kernel
end Verif.Matlab
