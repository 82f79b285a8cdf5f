import Mathlib.Data.List.Forall2
import Verif.SdsStack.Items
/-!
# C249, C250: rows of a stack of saved Datasets
-/
namespace Verif.SdsStack
open Verif.Items Verif.Cat
variable {L : Type} [DecidableEq L]

/-- the integers of one file in a stacked column -/
def seg (inv : Int) (t : Table L) (n : Name) : List Int :=
  match t.col n with
  | some c => c.vals
  | none => List.replicate t.rows inv

theorem seg_save (inv : Int) (t : Table L) (n : Name) :
    ((save t).orig.get n).getD (List.replicate (save t).rows inv) = seg inv t n := by
  rw [save_orig]
  unfold seg
  cases t.col n <;> rfl

theorem seg_length {inv : Int} {t : Table L} (ht : TableOK inv t) (n : Name) : (seg inv t n).length = t.rows := by
  unfold seg
  cases hc : t.col n with
  | none => simp
  | some c => exact ht.len (n, c) (col_mem hc)

theorem metaOf_tag {k k' : Kind L} (h : k.tag = k'.tag) : metaOf k = metaOf k' := by
  cases k <;> cases k' <;> simp [Kind.tag] at h <;> first | (subst h; rfl) | rfl

/-- the meta data of a column that is of one kind -/
theorem metas_of {inv : Int} (ts : List (Table L)) (hok : ∀ t ∈ ts, TableOK inv t) (hk : SameKind ts) {t0 : Table L} (h0 : t0 ∈ ts)
    {n : Name} {c0 : Column L} (hc0 : t0.col n = some c0) :
    (∀ m ∈ specMeta ((ts.map save).map (·.metas)) n, metaOf c0.kind = some m) ∧
    (∀ m0, metaOf c0.kind = some m0 → specMeta ((ts.map save).map (·.metas)) n ≠ []) := by
  rw [specMeta_save ts hok n]
  constructor
  · intro m hm
    obtain ⟨t, ht, hm⟩ := List.mem_flatMap.1 hm
    cases hc : t.col n with
    | none => rw [hc] at hm; simp at hm
    | some c =>
      rw [hc] at hm
      rw [metaOf_tag (hk t0 h0 t ht n c0 c hc0 hc)]
      simpa using hm
  · intro m0 hm0 he
    rw [List.flatMap_eq_nil_iff] at he
    have := he t0 h0
    rw [hc0] at this
    simp [hm0] at this

/-- the shown cells, file by file -/
theorem shows_flatMap (inv : Int) (k : Kind L) (ts : List (Table L)) (n : Name) (f : Table L → List Int)
    (h : ∀ t ∈ ts, (f t).map (cellOf inv k) = t.shows inv n) :
    (Column.mk k (ts.flatMap f)).shows inv = ts.flatMap (·.shows inv n) := by
  unfold Column.shows
  rw [List.map_flatMap]
  exact List.flatMap_congr h

theorem shows_some {inv : Int} {t : Table L} {n : Name} {c : Column L} (h : t.col n = some c) : t.shows inv n = c.shows inv := by
  unfold Table.shows; rw [h]

theorem shows_none {inv : Int} {t : Table L} {n : Name} (h : t.col n = none) : t.shows inv n = List.replicate t.rows none := by
  unfold Table.shows; rw [h]

/-- codes after the gaps are filled -/
def zero (inv : Int) (k : Int) : Int := if k = inv then 0 else k

theorem zero_id {inv : Int} {l : List Int} (h : inv ∉ l) : l.map (zero inv) = l := by
  conv_rhs => rw [← List.map_id l]
  refine List.map_congr_left fun k hk => ?_
  unfold zero
  rw [if_neg (show ¬ k = inv from fun e => h (e ▸ hk))]; rfl

theorem notMem_codes {inv : Int} (hinv : inv < 0) {c : Column L} (hkind : KindOK inv c) (hm : ∀ cls, c.kind ≠ .plain cls) : inv ∉ c.vals := by
  unfold KindOK at hkind
  cases hk : c.kind with
  | plain cls => exact absurd hk (hm cls)
  | arr b l =>
    rw [hk] at hkind
    intro h
    have := (hkind.2.2 inv h).1
    omega
  | map ps => rw [hk] at hkind; exact hkind.2.2

theorem tag_plain {k : Kind L} {cls : Nat} (h : (Kind.plain cls : Kind L).tag = k.tag) : k = .plain cls := by
  cases k <;> simp [Kind.tag] at h; rw [h]

theorem tag_arr {k : Kind L} {b : Nat} {l : List L} (h : (Kind.arr b l).tag = k.tag) : ∃ l', k = .arr b l' := by
  cases k <;> simp [Kind.tag] at h; exact ⟨_, by rw [h]⟩

theorem tag_map {k : Kind L} {ps : List (Int × List Char)} (h : (Kind.map ps : Kind L).tag = k.tag) : ∃ ps', k = .map ps' := by
  cases k <;> simp [Kind.tag] at h; exact ⟨_, rfl⟩

/-- codes of a stacked Categorical -/
theorem gaps_filled {inv : Int} (hinv : inv < 0) (ts : List (Table L)) (hok : ∀ t ∈ ts, TableOK inv t) (hk : SameKind ts) {t0 : Table L}
    (h0 : t0 ∈ ts) {n : Name} {c0 : Column L} (hc0 : t0.col n = some c0) (hnp : ∀ cls, c0.kind ≠ .plain cls) :
    fixGaps inv (cumsum 0 (ts.map fun t => t.rows)) (ts.flatMap fun t => seg inv t n) =
      ts.flatMap fun t => (seg inv t n).map (zero inv) := by
  have hno : ∀ t ∈ ts, ∀ c, t.col n = some c → inv ∉ c.vals := by
    intro t ht c hc
    refine notMem_codes hinv ((hok t ht).kind (n, c) (col_mem hc)) fun cls he => ?_
    have := hk t ht t0 h0 n c c0 hc hc0
    rw [he] at this
    exact hnp cls (tag_plain this)
  have h := fixGaps_eq inv (ts.map fun t => seg inv t n) (by
    intro s hs
    obtain ⟨t, ht, rfl⟩ := List.mem_map.1 hs
    unfold seg
    cases hc : t.col n with
    | none => exact Or.inr fun x hx => List.eq_of_mem_replicate hx
    | some c => exact Or.inl (hno t ht c hc)) (by
    intro hl
    rw [List.length_map] at hl
    have hts : ts = [t0] := by
      match ts, h0, hl with
      | [a], h, _ => simp at h; rw [h]
    rw [hts]
    simp only [List.map_cons, List.map_nil, List.flatten_cons, List.flatten_nil, List.append_nil]
    unfold seg
    rw [hc0]
    exact hno t0 h0 c0 hc0)
  rw [List.map_map] at h
  have hlen : ts.map ((fun x : List Int => x.length) ∘ fun t => seg inv t n) = ts.map fun t => t.rows :=
    List.map_congr_left fun t ht => seg_length (hok t ht) n
  rw [hlen, ← List.flatMap_def] at h
  rw [h, List.map_flatMap]
  rfl

theorem mergeCats_some (crc : List L → Nat) (g : List L → Grp) (base : Nat) (ind : List Int) (cats : List L) (icut ucut : List Nat) (buf : List Int) :
    ∃ r, mergeCats crc g base ind cats icut ucut buf = some r := by
  unfold mergeCats
  dsimp only
  split
  · unfold hstackGroupings
    split <;> exact ⟨_, rfl⟩
  · exact ⟨_, rfl⟩

theorem narrow_id {n : Nat} {k : Int} (h0 : 0 ≤ k) (h1 : k ≤ n) : narrow n k = k := by
  unfold narrow Int.bmod
  split
  · dsimp only; split <;> omega
  · split
    · dsimp only; split <;> omega
    · split
      · dsimp only; split <;> omega
      · rfl

/-- categories of one file -/
def labs (t : Table L) (n : Name) : List L := ((t.col n).bind fun c => labelsOf c.kind).getD []

theorem labs_save {inv : Int} {t : Table L} (ht : TableOK inv t) (n : Name) : ((save t).aux.get (auxName n)).getD [] = labs t n := by
  unfold labs
  rw [col_eq]
  exact congrArg (·.getD []) (get_aux labelsOf t.cols ht.names n)

theorem maps_save {inv : Int} {t : Table L} (ht : TableOK inv t) (n : Name) :
    ((save t).maps.get (auxName n)).getD ⟨[], []⟩ = mappingOf (pairsOf t n) := by
  have := get_aux mapsOf t.cols ht.names n
  have h2 : Dict.get (save t).maps (auxName n) = (Dict.get t.cols n).bind fun c => mapsOf c.kind := this
  rw [h2, ← col_eq]
  unfold pairsOf
  cases t.col n with
  | none => rfl
  | some c =>
    obtain ⟨k, v⟩ := c
    cases k <;> rfl

/-- the stacked array of a column -/
theorem orig_entry {inv : Int} (ts : List (Table L)) (n : Name) :
    ((n, (ts.map save).flatMap (fun f => (f.orig.get n).getD (List.replicate f.rows inv)), cumsum 0 ((ts.map save).map fun f => f.rows)) : Name × List Int × List Nat) =
      (n, ts.flatMap (fun t => seg inv t n), cumsum 0 (ts.map fun t => t.rows)) := by
  rw [List.flatMap_map, List.map_map]
  congr 2
  exact List.flatMap_congr fun t _ => seg_save inv t n

/-- what a column of the stack is and shows -/
theorem column_ok (crc : List L → Nat) (hcrc : ∀ a b, a.length = b.length → crc a = crc b → a = b)
    (crcI : List Int → Nat) (hI : ∀ a b, a.length = b.length → crcI a = crcI b → a = b)
    (crcS : List Label → Nat) (hS : ∀ a b, a.length = b.length → crcS a = crcS b → a = b)
    (g : List L → Grp) (hg : GroupOK g) (buf : Nat → List Int) (hbuf : ∀ k, (buf k).length = k) {inv : Int} (hinv : inv < 0)
    (ts : List (Table L)) (hok : ∀ t ∈ ts, TableOK inv t) (hk : SameKind ts) {t0 : Table L}
    (h0 : t0 ∈ ts) {n : Name} {c0 : Column L} (hc0 : t0.col n = some c0) :
    ∃ c, stackColumn crc crcI crcS g buf inv (multiStack inv (ts.map save))
        (n, ts.flatMap (fun t => seg inv t n), cumsum 0 (ts.map fun t => t.rows)) = .ok (n, c) ∧
      c.kind.tag = c0.kind.tag ∧ (Stackable ts n → c.shows inv = ts.flatMap (·.shows inv n)) := by
  obtain ⟨hM, hMne⟩ := metas_of ts hok hk h0 hc0
  have hbang : '!' ∉ n := (hok t0 h0).bang (n, c0) (col_mem hc0)
  have hms : (multiStack inv (ts.map save)).metas = (ts.map save).map (·.metas) := rfl
  -- columns of numbers
  have hplain : ∀ cls, c0.kind = .plain cls →
      (Column.mk (.plain cls : Kind L) (ts.flatMap fun t => seg inv t n)).shows inv = ts.flatMap (·.shows inv n) := by
    intro cls hcls
    refine shows_flatMap inv _ ts n _ fun t ht => ?_
    cases hc : t.col n with
    | none =>
      rw [shows_none hc]
      unfold seg; rw [hc]
      simp [cellOf]
    | some c =>
      rw [shows_some hc]
      have := hk t0 h0 t ht n c0 c hc0 hc
      rw [hcls] at this
      unfold seg Column.shows
      rw [hc, tag_plain this]
  cases hkind : c0.kind with
  | plain cls =>
    cases cls with
    | zero =>
      have : specMeta (multiStack inv (ts.map save)).metas n = [] := by
        rw [hms, List.eq_nil_iff_forall_not_mem]
        intro m hm
        have := hM m hm
        rw [hkind] at this
        cases this
      refine ⟨⟨.plain 0, _⟩, by simp only [stackColumn, this], rfl, fun _ => hplain 0 hkind⟩
    | succ cls =>
      rw [hkind] at hM hMne
      have hne := hMne _ rfl
      cases hM' : specMeta ((ts.map save).map (·.metas)) n with
      | nil => exact absurd hM' hne
      | cons m ms =>
        rw [hM'] at hM
        have hm := hM m List.mem_cons_self
        simp only [metaOf] at hm
        injection hm with hm
        refine ⟨⟨.plain (cls + 1), _⟩, by simp only [stackColumn, hms, hM', ← hm], rfl, fun _ => hplain _ hkind⟩
  | arr b l0 =>
    rw [hkind] at hM hMne
    have hne := hMne _ rfl
    have hnp : ∀ cls, c0.kind ≠ .plain cls := by intro cls; rw [hkind]; simp
    have hgap := gaps_filled hinv ts hok hk h0 hc0 hnp
    cases hM' : specMeta ((ts.map save).map (·.metas)) n with
    | nil => exact absurd hM' hne
    | cons m ms =>
      rw [hM'] at hM
      have hall : ∀ m' ∈ m :: ms, m' = .arr b := by
        intro m' hm'
        have := hM m' hm'
        simp only [metaOf] at this
        injection this with this
        exact this.symm
      have hm : m = .arr b := hall m List.mem_cons_self
      subst hm
      have haux := filter_aux labelsOf ts hok n hbang ⟨t0, h0, c0, hc0, by rw [hkind]; rfl⟩
        (fun m => ((ts.map save).flatMap (fun f => (f.aux.get m).getD []), cumsum 0 ((ts.map save).map fun f => ((f.aux.get m).getD []).length)))
      have hauxS : ((multiStack inv (ts.map save)).aux.filter fun a => specName a.1 = n).map (·.2) =
          [(ts.flatMap fun t => labs t n, cumsum 0 (ts.map fun t => (labs t n).length))] := by
        have e : (multiStack inv (ts.map save)).aux = (ts.flatMap fun t => (t.cols.filterMap fun e => (labelsOf e.2.kind).map fun l => (auxName e.1, l)).map (·.1)).eraseDups.map
            fun m => (m, (ts.map save).flatMap (fun f => (f.aux.get m).getD []), cumsum 0 ((ts.map save).map fun f => ((f.aux.get m).getD []).length)) := by
          unfold multiStack
          dsimp only
          rw [List.flatMap_map]
          rfl
        rw [e, haux, List.flatMap_map, List.map_map]
        have e1 : ts.flatMap (fun t => ((save t).aux.get (auxName n)).getD []) = ts.flatMap fun t => labs t n :=
          List.flatMap_congr fun t ht => labs_save (hok t ht) n
        have e2 : ts.map ((fun f : SFile L => ((f.aux.get (auxName n)).getD []).length) ∘ save) = ts.map fun t => (labs t n).length :=
          List.map_congr_left fun t ht => congrArg List.length (labs_save (hok t ht) n)
        rw [e1, e2]
      -- the parts that are stacked
      obtain ⟨⟨codes, newcats⟩, hmerge⟩ := mergeCats_some crc g b (ts.flatMap fun t => (seg inv t n).map (zero inv)) (ts.flatMap fun t => labs t n)
        (cumsum 0 (ts.map fun t => t.rows)) (cumsum 0 (ts.map fun t => (labs t n).length)) (buf (ts.flatMap fun t => (seg inv t n).map (zero inv)).length)
      have h1 : (Meta.arr b :: ms).any Meta.isOther = false := by
        rw [List.any_eq_false]; intro x hx; rw [hall x hx]; simp [Meta.isOther]
      have h2 : (Meta.arr b :: ms).any Meta.isMap = false := by
        rw [List.any_eq_false]; intro x hx; rw [hall x hx]; simp [Meta.isMap]
      have h3 : (Meta.arr b :: ms).all Meta.isMap = false := by simp [Meta.isMap]
      have h4 : ms.all (fun m => m = .arr b) = true := by
        rw [List.all_eq_true]; intro x hx; exact decide_eq_true (hall x (List.mem_cons_of_mem _ hx))
      refine ⟨⟨.arr b newcats, codes.map (narrow (newcats.length + b - 1))⟩, ?_, rfl, ?_⟩
      · simp only [stackColumn, hms, hM', hauxS, multistackCats, h1, h2, h3, h4, hgap, hmerge, Bool.false_eq_true, false_and, if_false, if_true]
      · intro hst
        have hcase : b = 1 ∨ Complete ts n := by
          have := hst t0 h0 c0 hc0
          rw [hkind] at this
          exact this
        have hb : b ≤ 1 := by
          have := (hok t0 h0).kind (n, c0) (col_mem hc0)
          unfold KindOK at this
          rw [hkind] at this
          exact this.1
        -- every part shows the cells of its file
        have hpart : ∀ t ∈ ts, (Part.mk ((seg inv t n).map (zero inv)) (labs t n)).WF b ∧
            ((Part.mk ((seg inv t n).map (zero inv)) (labs t n)).rows b).map (·.map Cell.label) = t.shows inv n := by
          intro t ht
          cases hc : t.col n with
          | none =>
            have hb1 : b = 1 := by
              rcases hcase with h | h
              · exact h
              · obtain ⟨c, h⟩ := h t ht; rw [hc] at h; cases h
            subst hb1
            have es : (seg inv t n).map (zero inv) = List.replicate t.rows 0 := by
              unfold seg; rw [hc]; simp [zero]
            have el : labs t n = [] := by unfold labs; rw [hc]; rfl
            rw [es, el, shows_none hc]
            refine ⟨⟨List.nodup_nil, ?_, ?_⟩, ?_⟩
            · intro k hk'; rw [List.eq_of_mem_replicate hk']
            · intro k hk'; rw [List.eq_of_mem_replicate hk']; simp
            · unfold Part.rows; simp [label?]
          | some c =>
            have htag := hk t0 h0 t ht n c0 c hc0 hc
            rw [hkind] at htag
            obtain ⟨l, hl⟩ := tag_arr htag
            have hko := (hok t ht).kind (n, c) (col_mem hc)
            have hnotin := notMem_codes hinv hko (by intro cls; rw [hl]; simp)
            unfold KindOK at hko
            rw [hl] at hko
            have es : (seg inv t n).map (zero inv) = c.vals := by
              unfold seg; rw [hc]; exact zero_id hnotin
            have el : labs t n = l := by unfold labs; rw [hc]; simp [hl, labelsOf]
            rw [es, el, shows_some hc]
            refine ⟨⟨hko.2.1, fun k hk' => (hko.2.2 k hk').1, fun k hk' => (hko.2.2 k hk').2⟩, ?_⟩
            unfold Part.rows Column.shows
            rw [List.map_map, hl]
            rfl
        obtain ⟨codes', labels', hh, hrows, _, hbound⟩ := hstack_rows crc hcrc g hg hb
          (ts.map fun t => Part.mk ((seg inv t n).map (zero inv)) (labs t n)) (by
            intro h; rw [List.map_eq_nil_iff] at h; rw [h] at h0; cases h0)
          (by intro c hc; obtain ⟨t, ht, rfl⟩ := List.mem_map.1 hc; exact (hpart t ht).1)
          (buf (ts.flatMap fun t => (seg inv t n).map (zero inv)).length) (by rw [hbuf, List.flatMap_map])
        have heq : hstackCats crc g b (ts.map fun t => Part.mk ((seg inv t n).map (zero inv)) (labs t n))
            (buf (ts.flatMap fun t => (seg inv t n).map (zero inv)).length) = some (codes, newcats) := by
          rw [← hmerge]
          unfold hstackCats
          rw [List.flatMap_map, List.flatMap_map, List.map_map, List.map_map]
          congr 2
          refine List.map_congr_left fun t ht => ?_
          simp [Function.comp, seg_length (hok t ht) n]
        rw [heq] at hh
        injection hh with hh
        injection hh with hh1 hh2
        subst hh1 hh2
        have hnar : codes.map (narrow (newcats.length + b - 1)) = codes := by
          conv_rhs => rw [← List.map_id codes]
          refine List.map_congr_left fun k hk' => ?_
          have := hbound k hk'
          exact narrow_id this.1 (by omega)
        rw [hnar]
        have hsh : (Column.mk (.arr b newcats) codes).shows inv = (codes.map (label? b newcats)).map (·.map Cell.label) := by
          unfold Column.shows; rw [List.map_map]; rfl
        rw [hsh, hrows, List.map_flatMap, List.flatMap_map]
        exact List.flatMap_congr fun t ht => (hpart t ht).2
  | map ps0 =>
    rw [hkind] at hM hMne
    have hne := hMne _ rfl
    have hnp : ∀ cls, c0.kind ≠ .plain cls := by intro cls; rw [hkind]; simp
    have hgap := gaps_filled hinv ts hok hk h0 hc0 hnp
    cases hM' : specMeta ((ts.map save).map (·.metas)) n with
    | nil => exact absurd hM' hne
    | cons m ms =>
      rw [hM'] at hM
      have hall : ∀ m' ∈ m :: ms, m' = .map := by
        intro m' hm'
        have := hM m' hm'
        simp only [metaOf] at this
        injection this with this
        exact this.symm
      have hm : m = .map := hall m List.mem_cons_self
      subst hm
      have haux := filter_aux mapsOf ts hok n hbang ⟨t0, h0, c0, hc0, by rw [hkind]; rfl⟩
        (fun m => (ts.map save).map fun f => (f.maps.get m).getD ⟨[], []⟩)
      have hauxS : ((multiStack inv (ts.map save)).maps.filter fun a => specName a.1 = n).map (·.2) =
          [ts.map fun t => mappingOf (pairsOf t n)] := by
        have e : (multiStack inv (ts.map save)).maps = (ts.flatMap fun t => (t.cols.filterMap fun e => (mapsOf e.2.kind).map fun l => (auxName e.1, l)).map (·.1)).eraseDups.map
            fun m => (m, (ts.map save).map fun f => (f.maps.get m).getD ⟨[], []⟩) := by
          unfold multiStack
          dsimp only
          rw [List.flatMap_map]
          rfl
        rw [e, haux, List.map_map]
        congr 1
        exact List.map_congr_left fun t ht => maps_save (hok t ht) n
      have h1 : (Meta.map :: ms).any Meta.isOther = false := by
        rw [List.any_eq_false]; intro x hx; rw [hall x hx]; simp [Meta.isOther]
      have h3 : (Meta.map :: ms).all Meta.isMap = true := by
        rw [List.all_eq_true]; intro x hx; rw [hall x hx]; rfl
      refine ⟨⟨.map (hstackMaps crcI crcS (ts.map fun t => mappingOf (pairsOf t n))).i2s,
        ts.flatMap fun t => (seg inv t n).map (zero inv)⟩, ?_, rfl, ?_⟩
      · simp only [stackColumn, hms, hM', hauxS, multistackCats, h1, h3, hgap, Bool.false_eq_true, not_true, and_false, if_false, if_true]
      · intro hst
        have hst0 := hst t0 h0 c0 hc0
        rw [hkind] at hst0
        obtain ⟨hcomp, hagree, _⟩ := hst0
        have hpairs : ∀ t ∈ ts, (((pairsOf t n).map (·.1)).Nodup ∧ ((pairsOf t n).map (·.2)).Nodup) := by
          intro t ht
          obtain ⟨c, hc⟩ := hcomp t ht
          have htag := hk t0 h0 t ht n c0 c hc0 hc
          rw [hkind] at htag
          obtain ⟨ps, hps⟩ := tag_map htag
          have hko := (hok t ht).kind (n, c) (col_mem hc)
          unfold KindOK at hko
          rw [hps] at hko
          unfold pairsOf
          obtain ⟨k, v⟩ := c
          simp only at hps
          subst hps
          rw [hc]
          exact ⟨hko.1, hko.2.1⟩
        have hH := hstack_mapping_partial crcI crcS hI hS (ts.map fun t => (mappingOf (pairsOf t n), pairsOf t n))
          (by intro h; rw [List.map_eq_nil_iff] at h; rw [h] at h0; cases h0)
          (by
            intro m hm
            obtain ⟨t, ht, rfl⟩ := List.mem_map.1 hm
            exact ⟨rfl, rfl, (hpairs t ht).1, (hpairs t ht).2⟩)
          (by rw [List.flatMap_map]; exact hagree)
        rw [List.map_map, List.flatMap_map] at hH
        refine shows_flatMap inv _ ts n _ fun t ht => ?_
        obtain ⟨c, hc⟩ := hcomp t ht
        have htag := hk t0 h0 t ht n c0 c hc0 hc
        rw [hkind] at htag
        obtain ⟨ps, hps⟩ := tag_map htag
        have hko := (hok t ht).kind (n, c) (col_mem hc)
        have hnotin := notMem_codes hinv hko (by intro cls; rw [hps]; simp)
        have es : (seg inv t n).map (zero inv) = c.vals := by
          unfold seg; rw [hc]; exact zero_id hnotin
        rw [es, shows_some hc]
        unfold Column.shows
        rw [hps]
        refine List.map_congr_left fun v hv => ?_
        have hst1 := hst t ht c hc
        rw [hps] at hst1
        obtain ⟨l, hl⟩ := hst1.2.2 v hv
        have hpo : pairsOf t n = ps := by
          unfold pairsOf
          obtain ⟨k, v⟩ := c
          simp only at hps
          subst hps
          rw [hc]
        -- both mappings give the label
        have hA : Dict.get ps v = some l := Dict.get_of_mem (by
          have := (hpairs t ht).1; rw [hpo] at this; exact this) hl
        have hB : Dict.get (hstackMaps crcI crcS (ts.map fun t => mappingOf (pairsOf t n))).i2s v = some l :=
          ((hH v l).1).2 (List.mem_flatMap.2 ⟨t, ht, by
            show (v, l) ∈ pairsOf t n
            rw [hpo]; exact hl⟩)
        have hcell : ∀ qs : List (Int × Label), Dict.get qs v = some l → cellOf inv (.map qs : Kind L) v = some (.text l) := by
          intro qs hq
          unfold Dict.get at hq
          simp only [cellOf]
          cases hf : qs.find? (fun e => decide (e.1 = v)) with
          | none => rw [hf] at hq; cases hq
          | some e => rw [hf] at hq; simp at hq; rw [← hq]
        rw [hcell _ hA, hcell _ hB]

theorem mapM_ok {α β : Type} (f : α → Except Err β) (l : List α) (h : ∀ x ∈ l, ∃ y, f x = .ok y) :
    ∃ ys, l.mapM f = .ok ys ∧ List.Forall₂ (fun x y => f x = .ok y) l ys := by
  induction l with
  | nil => exact ⟨[], rfl, List.Forall₂.nil⟩
  | cons x xs ih =>
    obtain ⟨y, hy⟩ := h x List.mem_cons_self
    obtain ⟨ys, hys, hf⟩ := ih fun z hz => h z (List.mem_cons_of_mem _ hz)
    refine ⟨y :: ys, ?_, List.Forall₂.cons hy hf⟩
    rw [List.mapM_cons, hy, hys]
    rfl

/-- **C249** Stacking saved Datasets whose columns of one name are of one kind succeeds.  The stack has the columns of all
Datasets, named as in the order of first occurrence; every column is of the kind it had.  Its rows are the rows of the files
one after the other: every row shows what it showed in its file, and is missing when its file had no such column. -/
theorem stack_rows (crc : List L → Nat) (hcrc : ∀ a b, a.length = b.length → crc a = crc b → a = b)
    (crcI : List Int → Nat) (hI : ∀ a b, a.length = b.length → crcI a = crcI b → a = b)
    (crcS : List Label → Nat) (hS : ∀ a b, a.length = b.length → crcS a = crcS b → a = b)
    (g : List L → Grp) (hg : GroupOK g) (buf : Nat → List Int) (hbuf : ∀ k, (buf k).length = k) {inv : Int} (hinv : inv < 0)
    (ts : List (Table L)) (hok : ∀ t ∈ ts, TableOK inv t) (hk : SameKind ts) :
    ∃ res, stackItems crc crcI crcS g buf inv (ts.map save) = .ok res ∧ res.map (·.1) = allNames ts ∧
      ∀ n c, (n, c) ∈ res → (∀ t ∈ ts, ∀ c', t.col n = some c' → c.kind.tag = c'.kind.tag) ∧
        (Stackable ts n → c.shows inv = ts.flatMap (·.shows inv n)) := by
  have horig : (multiStack inv (ts.map save)).orig = (allNames ts).map fun n =>
      (n, ts.flatMap (fun t => seg inv t n), cumsum 0 (ts.map fun t => t.rows)) := by
    have e : (multiStack inv (ts.map save)).orig = ((ts.map save).flatMap fun f => f.orig.map (·.1)).eraseDups.map fun n =>
      (n, (ts.map save).flatMap fun f => (f.orig.get n).getD (List.replicate f.rows inv), cumsum 0 ((ts.map save).map fun f => f.rows)) := rfl
    rw [e, List.flatMap_map]
    have e2 : (ts.flatMap fun t => (save t).orig.map (·.1)) = ts.flatMap fun t => t.cols.map (·.1) :=
      List.flatMap_congr fun t _ => save_orig_names t
    unfold allNames
    rw [e2]
    exact List.map_congr_left fun n _ => orig_entry ts n
  have hcol : ∀ n ∈ allNames ts, ∃ t0 ∈ ts, ∃ c0, t0.col n = some c0 := by
    intro n hn
    unfold allNames at hn
    rw [List.mem_eraseDups] at hn
    obtain ⟨t, ht, hn⟩ := List.mem_flatMap.1 hn
    obtain ⟨e, he, rfl⟩ := List.mem_map.1 hn
    exact ⟨t, ht, e.2, mem_col (hok t ht) he⟩
  have hone : ∀ n ∈ allNames ts, ∃ c, stackColumn crc crcI crcS g buf inv (multiStack inv (ts.map save))
        (n, ts.flatMap (fun t => seg inv t n), cumsum 0 (ts.map fun t => t.rows)) = .ok (n, c) ∧
        (∀ t ∈ ts, ∀ c', t.col n = some c' → c.kind.tag = c'.kind.tag) ∧ (Stackable ts n → c.shows inv = ts.flatMap (·.shows inv n)) := by
    intro n hn
    obtain ⟨t0, h0, c0, hc0⟩ := hcol n hn
    obtain ⟨c, hc⟩ := column_ok crc hcrc crcI hI crcS hS g hg buf hbuf hinv ts hok hk h0 hc0
    exact ⟨c, hc.1, fun t ht c' hc' => hc.2.1.trans (hk t0 h0 t ht n c0 c' hc0 hc'), hc.2.2⟩
  obtain ⟨ys, hys, hf⟩ := mapM_ok (stackColumn crc crcI crcS g buf inv (multiStack inv (ts.map save)))
    ((allNames ts).map fun n => (n, ts.flatMap (fun t => seg inv t n), cumsum 0 (ts.map fun t => t.rows))) (by
      intro o ho
      obtain ⟨n, hn, rfl⟩ := List.mem_map.1 ho
      obtain ⟨c, hc, _⟩ := hone n hn
      exact ⟨_, hc⟩)
  refine ⟨ys, by unfold stackItems; rw [horig, hys], ?_, ?_⟩
  · rw [List.forall₂_map_left_iff] at hf
    have hgen : ∀ (ns : List Name) (ys : List (Name × Column L)), (∀ n ∈ ns, n ∈ allNames ts) → List.Forall₂ (fun n y =>
        stackColumn crc crcI crcS g buf inv (multiStack inv (ts.map save))
          (n, ts.flatMap (fun t => seg inv t n), cumsum 0 (ts.map fun t => t.rows)) = .ok y) ns ys → ys.map (·.1) = ns := by
      intro ns
      induction ns with
      | nil => intro ys _ h; cases h; rfl
      | cons n ns ih =>
        intro ys hns h
        cases h with
        | cons h1 h2 =>
          obtain ⟨c, hc, _⟩ := hone n (hns n List.mem_cons_self)
          rw [hc] at h1
          injection h1 with h1
          rw [List.map_cons, ← h1, ih _ (fun m hm => hns m (List.mem_cons_of_mem _ hm)) h2]
    exact hgen _ _ (fun n hn => hn) hf
  · intro n c hnc
    rw [List.forall₂_map_left_iff] at hf
    have hgen : ∀ (ns : List Name) (ys : List (Name × Column L)), (∀ n ∈ ns, n ∈ allNames ts) → List.Forall₂ (fun n y =>
        stackColumn crc crcI crcS g buf inv (multiStack inv (ts.map save))
          (n, ts.flatMap (fun t => seg inv t n), cumsum 0 (ts.map fun t => t.rows)) = .ok y) ns ys → ∀ y ∈ ys, ∃ m ∈ ns,
        stackColumn crc crcI crcS g buf inv (multiStack inv (ts.map save))
          (m, ts.flatMap (fun t => seg inv t m), cumsum 0 (ts.map fun t => t.rows)) = .ok y := by
      intro ns
      induction ns with
      | nil => intro ys _ h; cases h; simp
      | cons n ns ih =>
        intro ys hns h
        cases h with
        | cons h1 h2 =>
          intro y hy
          rcases List.mem_cons.1 hy with rfl | hy
          · exact ⟨n, List.mem_cons_self, h1⟩
          · obtain ⟨m, hm, h⟩ := ih _ (fun m hm => hns m (List.mem_cons_of_mem _ hm)) h2 y hy
            exact ⟨m, List.mem_cons_of_mem _ hm, h⟩
    obtain ⟨m, hm, hmc⟩ := hgen _ _ (fun n hn => hn) hf (n, c) hnc
    obtain ⟨c', hc', hrest⟩ := hone m hm
    rw [hmc] at hc'
    injection hc' with hc'
    injection hc' with h1 h2
    subst h1 h2
    exact hrest

end Verif.SdsStack
