import Verif.GbKeys.Model
import Mathlib.Data.List.Sort
/-! # The chain of group keys: properties (C332 - C336) -/
namespace Verif.GbKeys
open Spec
variable {K : Type}

/-- what holds of a chain after calm requests -/
structure Inv (le : Row K → Row K → Prop) (src : List K) (pre : Bool) (n : Seen) (s : Chain K) : Prop where
  src_ : s.src = src
  pre_ : s.pre = pre
  display : s.display = n.display
  sorted : s.applied = n.sorted
  bin : s.filtered = n.bin
  none_ : s.gb = none → n.sorted = false ∧ n.bin = false
  on : n.sorted = true → n.display = true ∧ pre = false
  late : n.bin = true → n.display = true → pre = false → n.sorted = true
  rows : ∃ ks : List K, pull s = (if n.bin then [Row.filtered] else []) ++ ks.map Row.key ∧ Ordered le n.sorted src ks ∧
    (n.sorted = true → ∃ i, s.iso = some i ∧ ks = pick src i)
  iso : ∀ i, s.iso = some i → n.sorted = false → n.bin = false → Sorts le i (src.map Row.key)

theorem pick_map {A B : Type} (f : A → B) (l : List A) (idx : List Nat) : pick (l.map f) idx = (pick l idx).map f := by
  unfold pick
  rw [List.map_filterMap]
  congr 1
  funext i
  simp

theorem pick_sorts {le : Row K → Row K → Prop} {idx : List Nat} {src : List K} (h : Sorts le idx (src.map Row.key)) :
    (pick src idx).Perm src ∧ (pick src idx).Pairwise fun a b => le (.key a) (.key b) := by
  obtain ⟨out, h1, h2, h3⟩ := h
  have h4 : out = pick (src.map Row.key) idx := by
    clear h2 h3
    unfold pick
    induction h1 with
    | nil => rfl
    | cons hx _ ih => rw [List.filterMap_cons, hx, ih]
  rw [pick_map] at h4
  subst h4
  constructor
  · have h5 := h2.filterMap fun r => match r with
      | Row.key k => some k
      | Row.filtered => none
    simpa [List.filterMap_map, Function.comp_def] using h5
  · rw [List.pairwise_map] at h3
    exact h3

theorem pull_order (srt : List (Row K) → List Nat) (s : Chain K) (g : List (Row K)) :
    pull (order srt s g) = if s.display && !s.pre && !s.applied then pick g (s.iso.getD (srt g)) else g := by
  unfold order
  split <;> rfl

/-- the invariant after `keys` -/
theorem inv_keys {le : Row K → Row K → Prop} (srt : List (Row K) → List Nat) (hs : ∀ rows, Sorts le (srt rows) rows) {src : List K}
    {pre : Bool} {n : Seen} {s : Chain K} (h : Inv le src pre n s) (so : Option Bool) (sh : Bool) (hc : Calm pre n (.keys so sh)) :
    Inv le src pre (n.next pre (.keys so sh)) (keys srt so sh s).1 := by
  obtain ⟨ks, hk1, hk2, hk3⟩ := h.rows
  have hd : (setDisplay s so).display = so.getD n.display := by simp [setDisplay, h.display]
  have hp : (setDisplay s so).pre = pre := h.pre_
  have ha : (setDisplay s so).applied = n.sorted := h.sorted
  have hi : (setDisplay s so).iso = s.iso := rfl
  have hf : (setDisplay s so).filtered = n.bin := h.bin
  have hsr : (setDisplay s so).src = src := h.src_
  by_cases hcond : (so.getD n.display && !pre && !n.sorted) = true
  · -- the keys are sorted now
    simp only [Bool.and_eq_true, Bool.not_eq_true'] at hcond
    obtain ⟨⟨hc1, hc2⟩, hc3⟩ := hcond
    have hb : n.bin = false := by
      cases hb : n.bin with
      | false => rfl
      | true =>
        exfalso
        match so, hc1, hc with
        | none, hc1, _ =>
          have := h.late hb hc1 hc2
          rw [hc3] at this
          cases this
        | some true, _, hc =>
          rcases hc with hc | hc | hc
          · rw [hc2] at hc; cases hc
          · rw [hc3] at hc; cases hc
          · rw [hb] at hc; cases hc
        | some false, hc1, _ => cases hc1
    have hks : ks = src := by
      have := hk2
      unfold Ordered at this
      rw [hc3] at this
      simpa using this
    subst hks
    have hpull : pull s = ks.map Row.key := by rw [hk1, hb]; rfl
    have hidx : Sorts le (s.iso.getD (srt (pull s))) (ks.map Row.key) := by
      cases hiso : s.iso with
      | some i => exact h.iso i hiso hc3 hb
      | none => rw [hpull]; exact hs _
    have hst : (keys srt so sh s).1 = { setDisplay s so with
        gb := some (pick (pull s) (s.iso.getD (srt (pull s)))), iso := some (s.iso.getD (srt (pull s))), applied := true } := by
      unfold keys order
      dsimp only
      rw [hd, hp, ha, hc1, hc2, hc3]
      rfl
    rw [hst]
    refine ⟨hsr, hp, hd, ?_, hf, ?_, ?_, ?_, ⟨pick ks (s.iso.getD (srt (pull s))), ?_, ?_, ?_⟩, ?_⟩
    · simp [Seen.next, hc1, hc2]
    · intro hg
      cases hg
    · intro _
      exact ⟨hc1, hc2⟩
    · intro _ _ _
      simp [Seen.next, hc1, hc2]
    · have : (n.next pre (.keys so sh)).bin = false := hb
      rw [this]
      unfold pull
      dsimp only
      rw [← pick_map]
      simp only [Bool.false_eq_true, if_false, List.nil_append]
      have hpull' := hpull
      unfold pull at hpull'
      rw [hpull']
    · unfold Ordered
      rw [if_pos (by simp [Seen.next, hc1, hc2])]
      exact pick_sorts hidx
    · intro _
      exact ⟨_, rfl, rfl⟩
    · intro i _ hns
      simp [Seen.next, hc1, hc2] at hns
  · -- the keys stay as they are
    have hst : (keys srt so sh s).1 = { setDisplay s so with gb := some (pull s) } := by
      unfold keys order
      dsimp only
      rw [hd, hp, ha, if_neg hcond]
    have hsorted : (n.next pre (.keys so sh)).sorted = n.sorted := by
      simp only [Seen.next]
      cases h1 : n.sorted with
      | true => rfl
      | false =>
        rw [h1] at hcond
        simpa using hcond
    rw [hst]
    refine ⟨hsr, hp, hd, by rw [hsorted]; exact ha, hf, ?_, ?_, ?_, ⟨ks, ?_, ?_, ?_⟩, ?_⟩
    · intro hg
      cases hg
    · rw [hsorted]
      intro hsn
      obtain ⟨h1, h2⟩ := h.on hsn
      refine ⟨?_, h2⟩
      match so, hc with
      | none, _ => exact h1
      | some true, _ => rfl
      | some false, hc =>
        have : n.sorted = false := hc
        rw [hsn] at this
        cases this
    · intro _ hdis hpre
      rw [hsorted]
      cases h1 : n.sorted with
      | true => rfl
      | false =>
        exfalso
        apply hcond
        have hdis' : so.getD n.display = true := hdis
        rw [hdis', hpre, h1]
        rfl
    · exact hk1
    · rw [hsorted]
      exact hk2
    · rw [hsorted]
      exact hk3
    · rw [hsorted]
      intro i hi' hns hb
      exact h.iso i hi' hns hb

/-- what `keys` gives -/
theorem keys_result {le : Row K → Row K → Prop} (srt : List (Row K) → List Nat) (hs : ∀ rows, Sorts le (srt rows) rows) {src : List K}
    {pre : Bool} {n : Seen} {s : Chain K} (h : Inv le src pre n s) (so : Option Bool) (sh : Bool) (hc : Calm pre n (.keys so sh)) :
    ∃ ks, Ordered le (so.getD n.display && !pre) src ks ∧ Shown (sh && n.bin) ks (keys srt so sh s).2 ∧
      ((so.getD n.display && !pre) = true → ∃ i, (keys srt so sh s).1.iso = some i ∧ ks = pick src i) := by
  have hinv := inv_keys srt hs h so sh hc
  obtain ⟨ks, hk1, hk2, hk3⟩ := hinv.rows
  have hsorted : (n.next pre (.keys so sh)).sorted = (so.getD n.display && !pre) := by
    cases h1 : (n.next pre (.keys so sh)).sorted with
    | true =>
      obtain ⟨h2, h3⟩ := hinv.on h1
      have h2' : so.getD n.display = true := h2
      rw [h2', h3]
      rfl
    | false =>
      have : (n.sorted || (so.getD n.display && !pre)) = false := h1
      rw [Bool.or_eq_false_iff] at this
      exact this.2.symm
  rw [hsorted] at hk2 hk3
  refine ⟨ks, hk2, ?_, hk3⟩
  unfold Shown
  have hres : (keys srt so sh s).2 = trim sh (keys srt so sh s).1 (pull (keys srt so sh s).1) := rfl
  rw [hres, hk1]
  unfold trim
  rw [hinv.bin]
  have hb : (n.next pre (.keys so sh)).bin = n.bin := rfl
  rw [hb]
  cases n.bin <;> cases sh <;> simp

/-- the invariant after the bin is put in -/
theorem inv_insert {le : Row K → Row K → Prop} (srt : List (Row K) → List Nat) (hs : ∀ rows, Sorts le (srt rows) rows) {src : List K}
    {pre : Bool} {n : Seen} {s : Chain K} (h : Inv le src pre n s) :
    Inv le src pre (n.next pre .filtered) (insertBin srt s) := by
  unfold insertBin
  cases hb : s.filtered with
  | true =>
    rw [if_pos rfl]
    have hbn : n.bin = true := by rw [← h.bin]; exact hb
    have hn : n.next pre .filtered = n := by
      simp only [Seen.next]
      cases n with
      | mk d so b =>
        dsimp only at hbn
        subst hbn
        congr 1
        cases so with
        | true => rfl
        | false =>
          cases hd : d && !pre with
          | false => rfl
          | true =>
            rw [Bool.and_eq_true, Bool.not_eq_true'] at hd
            have := h.late rfl hd.1 hd.2
            cases this
    rw [hn]
    exact h
  | false =>
    rw [if_neg Bool.false_ne_true]
    dsimp only
    have hbn : n.bin = false := by rw [← h.bin]; exact hb
    have h1 := inv_keys srt hs h none false trivial
    obtain ⟨ks, hk1, hk2, hk3⟩ := h1.rows
    have hnb : (n.next pre (.keys none false)).bin = false := hbn
    rw [hnb] at hk1
    have hres : (keys srt none false s).2 = ks.map Row.key := by
      have : (keys srt none false s).2 = trim false (keys srt none false s).1 (pull (keys srt none false s).1) := rfl
      rw [this]
      unfold trim
      rw [h1.bin, hnb, hk1]
      rfl
    rw [hres]
    refine ⟨h1.src_, h1.pre_, h1.display, h1.sorted, rfl, ?_, h1.on, ?_, ⟨ks, rfl, hk2, hk3⟩, ?_⟩
    · intro hg
      cases hg
    · intro _ hdis hpre
      have hdis' : n.display = true := hdis
      simp [Seen.next, hdis', hpre]
    · intro i _ _ hbin
      cases hbin

theorem next_filtered_twice (pre : Bool) (n : Seen) : (n.next pre .filtered).next pre (.keys none true) = n.next pre .filtered := by
  simp [Seen.next, Bool.or_assoc]

theorem inv_filtered {le : Row K → Row K → Prop} (srt : List (Row K) → List Nat) (hs : ∀ rows, Sorts le (srt rows) rows) {src : List K}
    {pre : Bool} {n : Seen} {s : Chain K} (h : Inv le src pre n s) :
    Inv le src pre (n.next pre .filtered) (keysFiltered srt s).1 := by
  have := inv_keys srt hs (inv_insert srt hs h) none true trivial
  rw [next_filtered_twice] at this
  exact this

theorem inv_step {le : Row K → Row K → Prop} (srt : List (Row K) → List Nat) (hs : ∀ rows, Sorts le (srt rows) rows) {src : List K}
    {pre : Bool} {n : Seen} {s : Chain K} (h : Inv le src pre n s) (r : Req) (hc : Calm pre n r) :
    Inv le src pre (n.next pre r) (step srt s r) := by
  cases r with
  | keys so sh => exact inv_keys srt hs h so sh hc
  | filtered => exact inv_filtered srt hs h
  | sortRows =>
    unfold step sortRows
    cases hi : s.iso with
    | some i => exact h
    | none =>
      cases hg : s.gb with
      | none => exact h
      | some g =>
        obtain ⟨ks, hk1, hk2, hk3⟩ := h.rows
        have hns : n.sorted = false := by
          cases hn : n.sorted with
          | false => rfl
          | true =>
            obtain ⟨i, hi', _⟩ := hk3 hn
            rw [hi] at hi'
            cases hi'
        have hgp : pull s = g := by unfold pull; rw [hg]
        dsimp only [Option.map_some, Option.getD_some]
        refine ⟨h.src_, h.pre_, h.display, h.sorted, h.bin, fun hg' => (by cases hg'), h.on, h.late, ⟨ks, hgp ▸ hk1, hk2, ?_⟩, ?_⟩
        · intro hn
          have : n.sorted = true := hn
          rw [hns] at this
          cases this
        · intro i hi' _ hb
          have hb' : n.bin = false := hb
          have hi'' : srt g = i := by simpa using hi'
          have hks : ks = src := by
            unfold Ordered at hk2
            rw [hns] at hk2
            simpa using hk2
          rw [hb', hgp, hks] at hk1
          rw [← hi'']
          have : src.map Row.key = g := by rw [hk1]; rfl
          rw [this]
          exact hs g
  | unsort =>
    by_cases hp : s.pre = true
    · have hst : step srt s .unsort = { s with display := false } := by
        simp only [step, unsort]
        rw [if_pos hp]
        rfl
      rw [hst]
      have hpre : pre = true := by rw [← h.pre_]; exact hp
      have hnx : n.next pre .unsort = { n with display := false } := by simp [Seen.next, hpre]
      rw [hnx]
      have hns : n.sorted = false := by
        cases hn : n.sorted with
        | false => rfl
        | true =>
          have := (h.on hn).2
          rw [hpre] at this
          cases this
      refine ⟨h.src_, h.pre_, rfl, h.sorted, h.bin, h.none_, ?_, ?_, h.rows, h.iso⟩
      · intro hn
        have : n.sorted = true := hn
        rw [hns] at this
        cases this
      · intro _ hd
        cases hd
    · by_cases ha : s.applied = true
      · have hst : step srt s .unsort = s := by
          simp only [step, unsort]
          rw [if_neg hp, if_pos ha]
          rfl
        rw [hst]
        have hn : n.sorted = true := by rw [← h.sorted]; exact ha
        have hpre : pre = false := by rw [← h.pre_]; simpa using hp
        have hnx : n.next pre .unsort = n := by simp [Seen.next, hpre, hn]
        rw [hnx]
        exact h
      · have hst : step srt s .unsort = { s with display := false } := by
          simp only [step, unsort]
          rw [if_neg hp, if_neg ha]
          rfl
        rw [hst]
        have hn : n.sorted = false := by rw [← h.sorted]; simpa using ha
        have hnx : n.next pre .unsort = { n with display := false } := by simp [Seen.next, hn]
        rw [hnx]
        refine ⟨h.src_, h.pre_, rfl, h.sorted, h.bin, h.none_, ?_, ?_, h.rows, h.iso⟩
        · intro hn'
          have : n.sorted = true := hn'
          rw [hn] at this
          cases this
        · intro _ hd
          cases hd
  | copy =>
    obtain ⟨hn, hb⟩ := hc
    unfold step copy
    cases hp : s.prebinned with
    | true => exact h
    | false =>
      rw [if_neg Bool.false_ne_true]
      refine ⟨h.src_, h.pre_, h.display, h.sorted, h.bin, fun _ => ⟨hn, hb⟩, h.on, h.late, ⟨src, ?_, ?_, ?_⟩, h.iso⟩
      · have hb' : (n.next pre .copy).bin = false := hb
        rw [hb']
        show s.src.map Row.key = _
        rw [h.src_]
        rfl
      · unfold Ordered
        have hn' : (n.next pre .copy).sorted = false := hn
        rw [hn']
        rfl
      · intro hn'
        have : n.sorted = true := hn'
        rw [hn] at this
        cases this

theorem inv_make {le : Row K → Row K → Prop} (src : List K) (prebinned : Bool) (iso : Option (List Nat)) (display pre : Bool)
    (hiso : ∀ i, iso = some i → Sorts le i (src.map Row.key)) :
    Inv le src pre ⟨display, false, false⟩ (make src prebinned iso display pre) := by
  refine ⟨rfl, rfl, rfl, rfl, rfl, fun _ => ⟨rfl, rfl⟩, ?_, ?_, ⟨src, ?_, rfl, ?_⟩, ?_⟩
  · intro h; cases h
  · intro h; cases h
  · unfold make pull
    cases prebinned <;> rfl
  · intro h; cases h
  · intro i hi _ _
    exact hiso i hi

theorem inv_run {le : Row K → Row K → Prop} (srt : List (Row K) → List Nat) (hs : ∀ rows, Sorts le (srt rows) rows) {src : List K}
    {pre : Bool} {n m : Seen} {s : Chain K} (h : Inv le src pre n s) (l : List Req) (hc : CalmAll pre n l m) :
    Inv le src pre m (run srt s l) := by
  induction l generalizing n s with
  | nil =>
    cases hc
    exact h
  | cons r l ih => exact ih (inv_step srt hs h r hc.1) hc.2

/-- **C332** (partial: no request sorts after the bin was put in, undoes a sort, or copies a chain that was sorted or has the bin) After any
history of requests, keys asked for are the unique keys in the order asked for, without the filtered bin, or, where it was put in and is
asked for, with it in front; asked for with the bin, they have it in front. -/
theorem keys_history_partial {le : Row K → Row K → Prop} (srt : List (Row K) → List Nat) (hs : ∀ rows, Sorts le (srt rows) rows)
    (src : List K) (prebinned : Bool) (iso : Option (List Nat)) (hiso : ∀ i, iso = some i → Sorts le i (src.map Row.key))
    (display pre : Bool) (l : List Req) (n : Seen) (hl : CalmAll pre ⟨display, false, false⟩ l n) :
    (∀ so sh, Calm pre n (.keys so sh) → ∃ ks, Ordered le (so.getD n.display && !pre) src ks ∧
      Shown (sh && n.bin) ks (keys srt so sh (run srt (make src prebinned iso display pre) l)).2) ∧
    ∃ ks, Ordered le (n.display && !pre) src ks ∧
      Shown true ks (keysFiltered srt (run srt (make src prebinned iso display pre) l)).2 := by
  have h := inv_run srt hs (inv_make (le := le) src prebinned iso display pre hiso) l hl
  constructor
  · intro so sh hc
    obtain ⟨ks, h1, h2, _⟩ := keys_result srt hs h so sh hc
    exact ⟨ks, h1, h2⟩
  · obtain ⟨ks, h1, h2, _⟩ := keys_result srt hs (inv_insert srt hs h) none true trivial
    exact ⟨ks, h1, h2⟩

/-- **C333** (partial: the same) The values of the groups, put in the order the chain says, stand beside their keys. -/
theorem values_partial {le : Row K → Row K → Prop} (srt : List (Row K) → List Nat) (hs : ∀ rows, Sorts le (srt rows) rows)
    (src : List K) (prebinned : Bool) (iso : Option (List Nat)) (hiso : ∀ i, iso = some i → Sorts le i (src.map Row.key))
    (display pre : Bool) (l : List Req) (n : Seen) (hl : CalmAll pre ⟨display, false, false⟩ l n) (so : Option Bool)
    (hc : Calm pre n (.keys so false)) {V : Type} (value : K → V) :
    ∃ ks, Ordered le (so.getD n.display && !pre) src ks ∧
      (keys srt so false (run srt (make src prebinned iso display pre) l)).2 = ks.map Row.key ∧
      if sortData (keys srt so false (run srt (make src prebinned iso display pre) l)).1 then
        ∃ s' i, sortRows srt (keys srt so false (run srt (make src prebinned iso display pre) l)).1 = some (s', i) ∧
          pick (src.map value) i = ks.map value
      else src.map value = ks.map value := by
  have h := inv_run srt hs (inv_make (le := le) src prebinned iso display pre hiso) l hl
  obtain ⟨ks, h1, h2, h3⟩ := keys_result srt hs h so false hc
  have hinv := inv_keys srt hs h so false hc
  refine ⟨ks, h1, h2, ?_⟩
  have hsd : sortData (keys srt so false (run srt (make src prebinned iso display pre) l)).1 = (so.getD n.display && !pre) := by
    unfold sortData
    rw [hinv.display, hinv.pre_]
    rfl
  rw [hsd]
  by_cases hd : (so.getD n.display && !pre) = true
  · rw [if_pos hd]
    obtain ⟨i, hi, hk⟩ := h3 hd
    refine ⟨(keys srt so false (run srt (make src prebinned iso display pre) l)).1, i, ?_, ?_⟩
    · unfold sortRows
      rw [hi]
    · rw [pick_map, hk]
  · rw [if_neg hd]
    unfold Ordered at h1
    rw [if_neg hd] at h1
    rw [h1]

/-! ## A sort of numbers, with the bin among them as text would be -/

/-- the filtered bin sorts like the number 5 -/
def val : Row Nat → Nat
  | .filtered => 5
  | .key k => k

def leNat (a b : Row Nat) : Prop := val a ≤ val b

def srtNat (rows : List (Row Nat)) : List Nat :=
  (List.range rows.length).insertionSort fun i j => val ((rows[i]?).getD .filtered) ≤ val ((rows[j]?).getD .filtered)

theorem srtNat_sorts (rows : List (Row Nat)) : Sorts leNat (srtNat rows) rows := by
  have hp : (srtNat rows).Perm (List.range rows.length) := List.perm_insertionSort _ _
  refine ⟨(srtNat rows).map fun i => (rows[i]?).getD .filtered, ?_, ?_, ?_⟩
  · rw [List.forall₂_map_right_iff, List.forall₂_same]
    intro i hi
    have : i < rows.length := by simpa using hp.mem_iff.mp hi
    simp [this]
  · have h1 := hp.map fun i => (rows[i]?).getD Row.filtered
    have h2 : (List.range rows.length).map (fun i => (rows[i]?).getD Row.filtered) = rows := by
      apply List.ext_getElem
      · simp
      · intro i h1 h2
        simp [h2]
    rw [h2] at h1
    exact h1
  · rw [List.pairwise_map]
    unfold srtNat
    have : Std.Total fun i j : Nat => val ((rows[i]?).getD .filtered) ≤ val ((rows[j]?).getD .filtered) := ⟨fun a b => Nat.le_total _ _⟩
    have : IsTrans Nat fun i j : Nat => val ((rows[i]?).getD .filtered) ≤ val ((rows[j]?).getD .filtered) := ⟨fun a b c => Nat.le_trans⟩
    have hpw := List.pairwise_insertionSort (fun i j : Nat => val ((rows[i]?).getD .filtered) ≤ val ((rows[j]?).getD .filtered))
      (List.range rows.length)
    exact hpw

/-- the hypotheses can be met: a history of four requests -/
example : CalmAll false ⟨true, false, false⟩ [.copy, .keys none false, .filtered, .keys (some true) true] ⟨true, true, true⟩ := by
  simp [CalmAll, Calm, Seen.next]
example : (keysFiltered srtNat (run srtNat (make [9, 2, 7] false none true false) [.copy, .keys none false])).2 =
    [.filtered, .key 2, .key 7, .key 9] := by decide +kernel

/-- **C332** (counterexample) The bin is put in and then the keys are asked for sorted: the bin is sorted in among them, the first key is
cut off instead of the bin.  Keys asked for unsorted after they were sorted are sorted.  And `showfilter` alone does not give the bin. -/
theorem keys_history_counterexample :
    (keys srtNat (some true) false (run srtNat (make [9, 2, 7] true none false false) [.filtered])).2 = [.filtered, .key 7, .key 9] ∧
    (keys srtNat (some false) false (run srtNat (make [9, 2, 7] true none true false) [.keys none false])).2 = [.key 2, .key 7, .key 9] ∧
    (keys srtNat none true (make [9, 2, 7] true none true false)).2 = [.key 2, .key 7, .key 9] := by decide +kernel

/-- **C333** (counterexample) After the keys were given sorted and then asked for unsorted, they are sorted, but the chain says that the
values are not to be sorted: each value stands beside another key. -/
theorem values_counterexample :
    (keys srtNat (some false) false (run srtNat (make [9, 2, 7] true none true false) [.keys none false])).2 = [.key 2, .key 7, .key 9] ∧
    sortData (keys srtNat (some false) false (run srtNat (make [9, 2, 7] true none true false) [.keys none false])).1 = false := by
  decide +kernel

/-- **C333** (finding) The order of the keys cannot be asked for before the keys of a chain that is not binned. -/
theorem sortRows_first_raises (srt : List (Row K) → List Nat) (src : List K) (display pre : Bool) :
    sortRows srt (make src false none display pre) = none := rfl

/-! ## Copies -/

theorem run_binned (srt : List (Row K) → List Nat) (b : Bool) (l : List Req) (s : Chain K) (h : s.prebinned = b) :
    (run srt s l).prebinned = b := by
  have hk : ∀ (s : Chain K) so sh, s.prebinned = b → (keys srt so sh s).1.prebinned = b := by
    intro s so sh h
    unfold keys order
    dsimp only
    split <;> exact h
  induction l generalizing s with
  | nil => exact h
  | cons r l ih =>
    refine ih _ ?_
    cases r with
    | keys so sh => exact hk s so sh h
    | filtered =>
      unfold step keysFiltered
      apply hk
      unfold insertBin
      split
      · exact h
      · exact hk s none false h
    | sortRows =>
      unfold step sortRows
      cases s.iso with
      | some i => exact h
      | none => cases hg : s.gb <;> exact h
    | unsort =>
      simp only [step, unsort]
      by_cases hp : s.pre = true
      · rw [if_pos hp]
        exact h
      · rw [if_neg hp]
        by_cases ha : s.applied = true
        · rw [if_pos ha]
          exact h
        · rw [if_neg ha]
          exact h
    | copy =>
      simp only [step, copy]
      by_cases hp : s.prebinned = true
      · rw [if_pos hp]
        exact h
      · rw [if_neg hp]
        exact h

/-- **C334** (partial: not binned; the keys were not sorted and the bin was not put in yet) A copy gives the same keys as the original, and
is like it from then on. -/
theorem copy_partial {le : Row K → Row K → Prop} (srt : List (Row K) → List Nat) (hs : ∀ rows, Sorts le (srt rows) rows)
    (src : List K) (iso : Option (List Nat)) (hiso : ∀ i, iso = some i → Sorts le i (src.map Row.key))
    (display pre : Bool) (l : List Req) (n : Seen) (hl : CalmAll pre ⟨display, false, false⟩ l n) (h1 : n.sorted = false) (h2 : n.bin = false) :
    ∃ c, copy (run srt (make src false iso display pre) l) = some c ∧
      (∀ so sh, keys srt so sh c = keys srt so sh (run srt (make src false iso display pre) l)) ∧
      keysFiltered srt c = keysFiltered srt (run srt (make src false iso display pre) l) := by
  have h := inv_run srt hs (inv_make (le := le) src false iso display pre hiso) l hl
  have hb := run_binned srt false l (make src false iso display pre) rfl
  generalize run srt (make src false iso display pre) l = s at h hb
  obtain ⟨ks, hk1, hk2, _⟩ := h.rows
  have hks : ks = src := by
    unfold Ordered at hk2
    rw [h1] at hk2
    simpa using hk2
  rw [hks, h2] at hk1
  have hp : pull { s with gb := none } = pull s := by
    rw [hk1]
    show s.src.map Row.key = _
    rw [h.src_]
    rfl
  have hk : ∀ so sh, keys srt so sh { s with gb := none } = keys srt so sh s := by
    intro so sh
    unfold keys
    rw [hp]
    rfl
  refine ⟨{ s with gb := none }, ?_, hk, ?_⟩
  · unfold copy
    rw [hb]
    rfl
  · have hf : s.filtered = false := by rw [h.bin]; exact h2
    unfold keysFiltered
    have : insertBin srt { s with gb := none } = insertBin srt s := by
      have hk' := hk none false
      unfold insertBin
      rw [hk', if_neg (by show ¬ s.filtered = true; rw [hf]; exact Bool.false_ne_true), if_neg (by rw [hf]; exact Bool.false_ne_true)]
    rw [this]

/-- **C334** (finding) Chains of binned keys, as those of Categoricals, cannot be copied. -/
theorem copy_binned_raises (srt : List (Row K) → List Nat) (src : List K) (iso : Option (List Nat)) (display pre : Bool) (l : List Req) :
    copy (run srt (make src true iso display pre) l) = none := by
  unfold copy
  rw [run_binned srt true l _ rfl, if_pos rfl]

/-- **C334** (counterexample) The copy of a chain whose keys were sorted gives them unsorted, though it says they are sorted; the copy of one
that has the bin gives the keys without the first. -/
theorem copy_counterexample :
    (copy (run srtNat (make [9, 2, 7] false none true false) [.keys none false])).map (fun c => ((keys srtNat none false c).2, sortData c)) =
      some ([.key 9, .key 2, .key 7], true) ∧
    (copy (run srtNat (make [9, 2, 7] false none false false) [.filtered])).map (fun c => (keys srtNat none false c).2) =
      some [.key 2, .key 7] := by decide +kernel

/-! ## Lookups -/

theorem mem_wheres [DecidableEq K] (ks : List K) (k : K) (i : Nat) : i ∈ wheres ks k ↔ ks[i]? = some k := by
  unfold wheres
  rw [List.mem_filter, List.mem_range]
  constructor
  · exact fun h => by simpa using h.2
  · intro h
    exact ⟨(List.getElem?_eq_some_iff.mp h).1, by simpa using h⟩

/-- **C335** For different keys the place of a bin is where it stands, -1 when it is not there; the bin at a place is the key there, other
places raise; so each undoes the other. -/
theorem lookup_exact [DecidableEq K] (ks : List K) (hn : ks.Nodup) :
    (∀ (k : K) (i : Nat), getIndex ks k = i ↔ ks[i]? = some k) ∧ (∀ k : K, getIndex ks k = -1 ↔ k ∉ ks) ∧
    (∀ (i : Int) (k : K), getBin ks i = some k ↔ 0 ≤ i ∧ getIndex ks k = i) ∧
    (∀ i : Int, getBin ks i = none ↔ i < 0 ∨ (ks.length : Int) ≤ i) := by
  have huniq : ∀ (k : K) (i : Nat), ks[i]? = some k → wheres ks k = [i] := by
    intro k i hi
    have hnd : (wheres ks k).Nodup := List.Nodup.filter _ List.nodup_range
    have hall : ∀ j ∈ wheres ks k, j = i := by
      intro j hj
      rw [mem_wheres] at hj
      obtain ⟨h1, h2⟩ := List.getElem?_eq_some_iff.mp hj
      obtain ⟨h3, h4⟩ := List.getElem?_eq_some_iff.mp hi
      exact (List.Nodup.getElem_inj_iff hn).mp (h2.trans h4.symm)
    have hmem : i ∈ wheres ks k := (mem_wheres ks k i).mpr hi
    match hw : wheres ks k with
    | [] => rw [hw] at hmem; simp at hmem
    | [j] =>
      rw [hw] at hall
      rw [hall j (by simp)]
    | a :: b :: t =>
      rw [hw] at hall hnd
      have h1 := hall a (by simp)
      have h2 := hall b (by simp)
      rw [h1, h2] at hnd
      simp at hnd
  have hA : ∀ (k : K) (i : Nat), getIndex ks k = i ↔ ks[i]? = some k := by
    intro k i
    constructor
    · intro h
      unfold getIndex at h
      split at h
      · rename_i j hj
        have : i = j := by omega
        subst this
        exact (mem_wheres ks k i).mp (by rw [hj]; simp)
      · omega
    · intro h
      unfold getIndex
      rw [huniq k i h]
  have hB : ∀ k : K, getIndex ks k = -1 ↔ k ∉ ks := by
    intro k
    constructor
    · intro h hk
      obtain ⟨i, hi⟩ := List.mem_iff_getElem?.mp hk
      rw [(hA k i).mpr hi] at h
      omega
    · intro hk
      have : wheres ks k = [] := by
        rw [List.eq_nil_iff_forall_not_mem]
        intro i hi
        exact hk (List.mem_of_getElem? ((mem_wheres ks k i).mp hi))
      unfold getIndex
      rw [this]
  refine ⟨hA, hB, ?_, ?_⟩
  · intro i k
    unfold getBin
    by_cases h : 0 ≤ i ∧ i < ks.length
    · rw [if_pos h]
      have hi : ((i.toNat : Nat) : Int) = i := Int.toNat_of_nonneg h.1
      rw [← hA k i.toNat, hi]
      exact ⟨fun h' => ⟨h.1, h'⟩, fun h' => h'.2⟩
    · rw [if_neg h]
      constructor
      · intro h'; cases h'
      · rintro ⟨h1, h2⟩
        have hi : ((i.toNat : Nat) : Int) = i := Int.toNat_of_nonneg h1
        rw [← hi, hA] at h2
        have := (List.getElem?_eq_some_iff.mp h2).1
        exact absurd ⟨h1, by omega⟩ h
  · intro i
    unfold getBin
    by_cases h : 0 ≤ i ∧ i < ks.length
    · rw [if_pos h]
      have : i.toNat < ks.length := by omega
      simp [this]
      omega
    · rw [if_neg h]
      simp
      omega

/-- the hypotheses can be met -/
example : getIndex ["a", "b"] "b" = 1 ∧ getIndex ["a", "b"] "c" = -1 ∧ getBin ["a", "b"] 1 = some "b" ∧ getBin ["a", "b"] (-1) = none := by
  decide +kernel

/-- **C336** (partial: two places or more) The bins at a list of places are the list of the bins at each of them. -/
theorem bins_partial (ks : List K) (is : List Int) (h : 2 ≤ is.length) (l : List K) :
    getBins ks is = some (.many l) ↔ List.Forall₂ (fun i k => getBin ks i = some k) is l := by
  have hm : ∀ (is : List Int) (l : List K), is.mapM (getBin ks) = some l ↔ List.Forall₂ (fun i k => getBin ks i = some k) is l := by
    intro is
    induction is with
    | nil => intro l; simp [eq_comm]
    | cons i is ih =>
      intro l
      rw [List.mapM_cons]
      cases hb : getBin ks i with
      | none =>
        constructor
        · intro h'; simp at h'
        · intro h'
          cases h' with
          | cons h1 _ => rw [hb] at h1; cases h1
      | some k =>
        cases hr : is.mapM (getBin ks) with
        | none =>
          constructor
          · intro h'; simp [hr] at h'
          · intro h'
            cases h' with
            | cons h1 h2 =>
              rw [← ih, hr] at h2
              cases h2
        | some r =>
          constructor
          · intro h'
            simp [hr] at h'
            subst h'
            exact .cons hb ((ih r).mp hr)
          · intro h'
            cases h' with
            | cons h1 h2 =>
              rw [hb] at h1
              rw [← ih, hr] at h2
              cases h1
              cases h2
              simp [hr]
  rw [← hm]
  match is, h with
  | a :: b :: t, _ =>
    simp only [getBins, Option.map_eq_some_iff]
    constructor
    · rintro ⟨r, hr, he⟩
      have hlen := ((hm _ _).mp hr).length_eq
      match r, hlen with
      | x :: y :: z, _ =>
        cases he
        exact hr
    · intro hr
      refine ⟨l, hr, ?_⟩
      have hlen := ((hm _ _).mp hr).length_eq
      match l, hlen with
      | x :: y :: z, _ => rfl

/-- **C336** (counterexample) A list of one place gives the bin itself, not a list; an empty list raises. -/
theorem bins_counterexample : getBins ["a", "b"] [1] = some (.one "b") ∧ getBins ["a", "b"] [] = none := by decide +kernel
end Verif.GbKeys
