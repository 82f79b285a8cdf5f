import Verif.DsNew.Model
/-! # Making a Dataset of a dictionary: properties (C344 - C346) -/
namespace Verif.DsNew
open Spec
open Verif.DsOps (Ds setCol)
variable {V : Type}
deriving instance DecidableEq for Except

theorem setCol_new (name : String) (xs : List V) (cols : List (String × List V)) (h : name ∉ cols.map Prod.fst) :
    setCol name xs cols = cols ++ [(name, xs)] := by
  induction cols with
  | nil => rfl
  | cons c cols ih =>
    simp only [List.map_cons, List.mem_cons, not_or] at h
    have hne : ¬ c.1 = name := fun h' => h.1 h'.symm
    simp only [setCol, if_neg hne, ih h.2, List.cons_append]

theorem convert_rows (ok : List V → Bool) (v : Given V) (xs : List V) (h : convert ok v = some xs) :
    Rows v xs ∧ ok xs = true ∧ ∀ t, v ≠ .tuple t := by
  cases v with
  | array ys =>
    simp only [convert] at h
    by_cases hk : ok ys = true
    · rw [if_pos hk] at h
      cases h
      exact ⟨rfl, hk, by simp⟩
    · rw [if_neg hk] at h
      cases h
  | list ys =>
    simp only [convert] at h
    by_cases hk : ok ys = true
    · rw [if_pos hk] at h
      cases h
      exact ⟨rfl, hk, by simp⟩
    · rw [if_neg hk] at h
      cases h
  | tuple ys => cases h
  | scalar x =>
    simp only [convert] at h
    by_cases hk : ok [x] = true
    · rw [if_pos hk] at h
      cases h
      exact ⟨rfl, hk, by simp⟩
    · rw [if_neg hk] at h
      cases h
  | set => cases h

theorem convert_of_rows (ok : List V → Bool) (v : Given V) (xs : List V) (h : Rows v xs) (hok : ok xs = true) (ht : ∀ t, v ≠ .tuple t) :
    convert ok v = some xs := by
  cases v with
  | array ys => cases h; simp only [convert, if_pos hok]
  | list ys => cases h; simp only [convert, if_pos hok]
  | tuple ys => exact absurd rfl (ht ys)
  | scalar x => cases h; simp only [convert, if_pos hok]
  | set => cases h

/-- an entry that is taken, with its column -/
def Taken (nm : Names) (ok : List V → Bool) (e : String × Given V) (c : String × List V) : Prop :=
  e.1 ≠ "" ∧ c.1 = setName nm e.1 ∧ convert ok e.2 = some c.2

theorem addAll_iff (nm : Names) (ok : List V → Bool) (entries : List (String × Given V)) (cols r : List (String × List V))
    (hd : (entries.map fun e => setName nm e.1).Nodup) (hn : ∀ e ∈ entries, setName nm e.1 ∉ cols.map Prod.fst) :
    addAll nm ok entries cols = .ok r ↔ ∃ new, r = cols ++ new ∧ List.Forall₂ (Taken nm ok) entries new := by
  induction entries generalizing cols with
  | nil =>
    simp only [addAll]
    constructor
    · intro h
      cases h
      exact ⟨[], by simp, .nil⟩
    · rintro ⟨new, h, hf⟩
      cases hf
      rw [h]
      simp
  | cons e rest ih =>
    obtain ⟨n, v⟩ := e
    simp only [addAll]
    rw [List.map_cons, List.nodup_cons] at hd
    by_cases he : n = ""
    · rw [if_pos he]
      constructor
      · intro h; cases h
      · rintro ⟨new, _, hf⟩
        cases hf with
        | cons h _ => exact absurd he h.1
    · rw [if_neg he]
      cases hc : convert ok v with
      | none =>
        dsimp only
        constructor
        · intro h; cases h
        · rintro ⟨new, _, hf⟩
          cases hf with
          | cons h _ =>
            have := h.2.2
            rw [hc] at this
            cases this
      | some xs =>
        dsimp only
        rw [setCol_new _ _ _ (hn (n, v) (by simp))]
        rw [ih (cols ++ [(setName nm n, xs)]) hd.2 (by
          intro e' he'
          rw [List.map_append, List.mem_append, not_or]
          refine ⟨hn e' (List.mem_cons_of_mem _ he'), ?_⟩
          intro hm
          simp only [List.map_cons, List.map_nil, List.mem_singleton] at hm
          exact hd.1 (List.mem_map.mpr ⟨e', he', hm⟩))]
        constructor
        · rintro ⟨new, h1, h2⟩
          exact ⟨(setName nm n, xs) :: new, by rw [h1]; simp, .cons ⟨he, rfl, hc⟩ h2⟩
        · rintro ⟨new, h1, h2⟩
          cases h2 with
          | @cons _ c _ l h h2 =>
            obtain ⟨_, hc1, hc2⟩ := h
            rw [hc] at hc2
            obtain ⟨cn, cx⟩ := c
            dsimp only at hc1 hc2
            cases hc2
            rw [hc1] at h1
            exact ⟨l, by rw [h1]; simp, h2⟩

theorem checkRows_iff (cols : List (String × List V)) (n : Option Nat) (m : Option Nat) :
    checkRows n cols = .ok m ↔ (cols = [] ∧ m = n) ∨ (cols ≠ [] ∧ (∀ k, n = some k → m = some k) ∧ ∀ c ∈ cols, m = some c.2.length) := by
  induction cols generalizing n with
  | nil =>
    cases n <;> simp only [checkRows, Except.ok.injEq] <;> simp <;> exact eq_comm
  | cons c cs ih =>
    cases n with
    | none =>
      simp only [checkRows]
      rw [ih]
      constructor
      · rintro (⟨h1, h2⟩ | ⟨h1, h2, h3⟩)
        · subst h1 h2
          exact Or.inr ⟨by simp, by simp, by simp⟩
        · exact Or.inr ⟨by simp, by simp, by
            intro c' hc'
            rcases List.mem_cons.mp hc' with rfl | hc'
            · exact h2 _ rfl
            · exact h3 c' hc'⟩
      · rintro (⟨h1, _⟩ | ⟨_, _, h3⟩)
        · cases h1
        · have hm := h3 c (by simp)
          by_cases he : cs = []
          · exact Or.inl ⟨he, hm⟩
          · exact Or.inr ⟨he, fun k hk => by cases hk; exact hm, fun c' hc' => h3 c' (List.mem_cons_of_mem _ hc')⟩
    | some k =>
      simp only [checkRows]
      by_cases hk : k = c.2.length
      · rw [if_pos hk, ih]
        constructor
        · rintro (⟨h1, h2⟩ | ⟨h1, h2, h3⟩)
          · subst h1 h2 hk
            exact Or.inr ⟨by simp, by simp, by simp⟩
          · have hm := h2 k rfl
            exact Or.inr ⟨by simp, h2, by
              intro c' hc'
              rcases List.mem_cons.mp hc' with rfl | hc'
              · rw [hm, hk]
              · exact h3 c' hc'⟩
        · rintro (⟨h1, _⟩ | ⟨_, h2, h3⟩)
          · cases h1
          · by_cases he : cs = []
            · exact Or.inl ⟨he, h2 k rfl⟩
            · exact Or.inr ⟨he, h2, fun c' hc' => h3 c' (List.mem_cons_of_mem _ hc')⟩
      · rw [if_neg hk]
        constructor
        · intro h; cases h
        · rintro (⟨h1, _⟩ | ⟨_, h2, h3⟩)
          · cases h1
          · have := h2 k rfl
            rw [h3 c (by simp)] at this
            cases this
            exact absurd rfl hk

/-- **C345** All columns of a Dataset made of a dictionary have its number of rows, whatever is in the dictionary. -/
theorem create_rect (nm : Names) (ok : List V → Bool) (entries : List (String × Given V)) (d : Ds V) (h : create nm ok entries = .ok d) :
    Rect d.nrows d.cols := by
  unfold create at h
  split at h
  · cases h
  · cases ha : addAll nm ok entries [] with
    | error e => rw [ha] at h; cases h
    | ok cols =>
      rw [ha] at h
      dsimp only at h
      cases hc : checkRows none cols with
      | error e => rw [hc] at h; cases h
      | ok n =>
        rw [hc] at h
        cases h
        rcases (checkRows_iff cols none n).mp hc with ⟨h1, h2⟩ | ⟨h1, _, h3⟩
        · subst h1 h2
          exact ⟨fun _ => rfl, by simp⟩
        · exact ⟨fun h => absurd h h1, h3⟩

theorem create_iff (nm : Names) (ok : List V → Bool) (entries : List (String × Given V)) (d : Ds V)
    (hd : (entries.map fun e => setName nm e.1).Nodup) :
    create nm ok entries = .ok d ↔ (∀ e ∈ entries, nm.under e.1 = false) ∧ List.Forall₂ (Taken nm ok) entries d.cols ∧
      Rect d.nrows d.cols := by
  constructor
  · intro h
    have hr := create_rect nm ok entries d h
    unfold create at h
    by_cases hu : (entries.any fun e => nm.under e.1) = true
    · rw [if_pos hu] at h; cases h
    · rw [if_neg hu] at h
      cases ha : addAll nm ok entries [] with
      | error e => rw [ha] at h; cases h
      | ok cols =>
        rw [ha] at h
        dsimp only at h
        obtain ⟨new, h1, h2⟩ := (addAll_iff nm ok entries [] cols hd (by simp)).mp ha
        rw [List.nil_append] at h1
        subst h1
        cases hc : checkRows none cols with
        | error e => rw [hc] at h; cases h
        | ok n =>
          rw [hc] at h
          cases h
          refine ⟨fun e he => ?_, h2, hr⟩
          by_contra hb
          exact hu (List.any_eq_true.mpr ⟨e, he, by simpa using hb⟩)
  · rintro ⟨hu, hf, hr⟩
    obtain ⟨n, cols⟩ := d
    unfold create
    rw [if_neg (by
      intro hb
      obtain ⟨e, he, hb⟩ := List.any_eq_true.mp hb
      rw [hu e he] at hb
      cases hb), (addAll_iff nm ok entries [] cols hd (by simp)).mpr ⟨cols, by simp, hf⟩]
    dsimp only
    have : checkRows none cols = .ok n := by
      rw [checkRows_iff]
      by_cases he : cols = []
      · exact Or.inl ⟨he, hr.1 he⟩
      · exact Or.inr ⟨he, by simp, hr.2⟩
    rw [this]

/-- **C344** (partial: all names are valid ones) A Dataset made of a dictionary has a column for every entry, in order, under its name
and with its rows, or none is made. -/
theorem create_partial (nm : Names) (ok : List V → Bool) (entries : List (String × Given V)) (hn : (entries.map Prod.fst).Nodup)
    (ha : ∀ e ∈ entries, nm.valid e.1 = true) (d : Ds V) (h : create nm ok entries = .ok d) :
    List.Forall₂ AsGiven entries d.cols := by
  have hs : ∀ e ∈ entries, setName nm e.1 = e.1 := fun e he => by unfold setName; rw [if_pos (ha e he)]
  have hd : (entries.map fun e => setName nm e.1).Nodup := by
    rw [List.map_congr_left hs]
    exact hn
  obtain ⟨_, h2, _⟩ := (create_iff nm ok entries d hd).mp h
  have : ∀ (l : List (String × Given V)) (c : List (String × List V)), (∀ e ∈ l, setName nm e.1 = e.1) → List.Forall₂ (Taken nm ok) l c →
      List.Forall₂ AsGiven l c := by
    intro l c hl hf
    induction hf with
    | nil => exact .nil
    | cons hh _ ih =>
      refine .cons ⟨?_, (convert_rows ok _ _ hh.2.2).1⟩ (ih fun e he => hl e (List.mem_cons_of_mem _ he))
      rw [hh.2.1, hl _ (by simp)]
  exact this entries d.cols hs h2

/-- **C344** (exact) It is made exactly when no name is empty or begins with an underscore, nothing is a tuple or a set, everything can be
converted, and all have the same number of rows - a single value has one. -/
theorem create_exact (nm : Names) (ok : List V → Bool) (entries : List (String × Given V)) (hn : (entries.map Prod.fst).Nodup)
    (ha : ∀ e ∈ entries, nm.valid e.1 = true) :
    (∃ d, create nm ok entries = .ok d) ↔
      (∀ e ∈ entries, nm.under e.1 = false ∧ e.1 ≠ "" ∧ (∀ t, e.2 ≠ .tuple t) ∧ ∃ xs, Rows e.2 xs ∧ ok xs = true) ∧
      ∃ n, ∀ e ∈ entries, ∀ xs, Rows e.2 xs → xs.length = n := by
  have hs : ∀ e ∈ entries, setName nm e.1 = e.1 := fun e he => by unfold setName; rw [if_pos (ha e he)]
  have hd : (entries.map fun e => setName nm e.1).Nodup := by
    rw [List.map_congr_left hs]
    exact hn
  have huniq : ∀ (v : Given V) (a b : List V), Rows v a → Rows v b → a = b := by
    intro v a b h1 h2
    cases v <;> cases h1 <;> cases h2 <;> rfl
  constructor
  · rintro ⟨d, h⟩
    obtain ⟨hu, hf, hr⟩ := (create_iff nm ok entries d hd).mp h
    have hmem : ∀ (l : List (String × Given V)) (c : List (String × List V)), List.Forall₂ (Taken nm ok) l c →
        ∀ e ∈ l, ∃ x ∈ c, Taken nm ok e x := by
      intro l c hf
      induction hf with
      | nil => simp
      | cons hh _ ih =>
        intro e he
        rcases List.mem_cons.mp he with rfl | he
        · exact ⟨_, by simp, hh⟩
        · obtain ⟨x, hx, ht⟩ := ih e he
          exact ⟨x, List.mem_cons_of_mem _ hx, ht⟩
    refine ⟨fun e he => ?_, ?_⟩
    · obtain ⟨x, _, ht⟩ := hmem _ _ hf e he
      obtain ⟨h1, h2, h3⟩ := convert_rows ok e.2 x.2 ht.2.2
      exact ⟨hu e he, ht.1, h3, x.2, h1, h2⟩
    · refine ⟨d.nrows.getD 0, fun e he xs hx => ?_⟩
      obtain ⟨x, hxm, ht⟩ := hmem _ _ hf e he
      rw [huniq _ _ _ hx (convert_rows ok e.2 x.2 ht.2.2).1, hr.2 x hxm]
      rfl
  · rintro ⟨h1, n, h2⟩
    have hex : ∀ (l : List (String × Given V)), (∀ e ∈ l, e ∈ entries) → ∃ c : List (String × List V),
        List.Forall₂ (Taken nm ok) l c ∧ ∀ x ∈ c, x.2.length = n := by
      intro l hl
      induction l with
      | nil => exact ⟨[], .nil, by simp⟩
      | cons e l ih =>
        obtain ⟨c, hc1, hc2⟩ := ih fun e he => hl e (List.mem_cons_of_mem _ he)
        have hm := hl e (by simp)
        obtain ⟨_, h4, h5, xs, h6, h7⟩ := h1 e hm
        refine ⟨(setName nm e.1, xs) :: c, .cons ⟨h4, rfl, convert_of_rows ok e.2 xs h6 h7 h5⟩ hc1, ?_⟩
        intro x hx
        rcases List.mem_cons.mp hx with rfl | hx
        · exact h2 e hm xs h6
        · exact hc2 x hx
    obtain ⟨c, hc1, hc2⟩ := hex entries fun e he => he
    refine ⟨⟨if c = [] then none else some n, c⟩, (create_iff nm ok entries _ hd).mpr ⟨fun e he => (h1 e he).1, hc1, ?_⟩⟩
    refine ⟨fun h => by dsimp only at h; simp [h], ?_⟩
    intro x hx
    have : c ≠ [] := by
      intro h
      dsimp only at hx
      rw [h] at hx
      simp at hx
    dsimp only
    rw [if_neg this, hc2 x hx]

theorem assign_one (ok : List V → Bool) (d : Ds V) (n : String) (v : Given V) (xs : List V) (hc : convert ok v = some xs)
    (hr : d.nrows = none ∨ d.nrows = some xs.length) (hn : n ∉ d.cols.map Prod.fst) :
    Verif.DsOps.assign ok d n (toValue v) = (⟨some xs.length, d.cols ++ [(n, xs)]⟩, none) := by
  obtain ⟨h1, h2, h3⟩ := convert_rows ok v xs hc
  obtain ⟨nr, cols⟩ := d
  dsimp only at hr hn
  have hadd : ∀ nr', (nr' = none ∨ nr' = some xs.length) →
      Verif.DsOps.addCol ok ⟨nr', cols⟩ n xs = (⟨some xs.length, cols ++ [(n, xs)]⟩, none) := by
    intro nr' hr'
    unfold Verif.DsOps.addCol
    rw [if_neg (by rw [h2]; simp)]
    rcases hr' with rfl | rfl
    · dsimp only
      rw [setCol_new n xs cols hn]
    · dsimp only
      rw [if_neg (by omega), if_pos rfl, setCol_new n xs cols hn]
  have hget : nr.getD xs.length = xs.length := by
    rcases hr with rfl | rfl <;> rfl
  cases v with
  | array ys =>
    cases h1
    exact hadd nr hr
  | list ys =>
    cases h1
    simp only [toValue, Verif.DsOps.assign]
    rw [hget, if_neg (by omega), if_pos rfl]
    exact hadd _ (Or.inr rfl)
  | tuple ys => exact absurd rfl (h3 ys)
  | scalar x =>
    cases h1
    simp only [toValue, Verif.DsOps.assign]
    have hg : nr.getD 1 = 1 := hget
    rw [hg]
    exact hadd _ (Or.inr rfl)
  | set => cases h1

/-- **C346** (partial: when the dictionary is taken) The Dataset made of a dictionary is the one that assigning its entries one after the
other to an empty Dataset gives. -/
theorem same_partial (nm : Names) (ok : List V → Bool) (entries : List (String × Given V)) (hn : (entries.map Prod.fst).Nodup)
    (ha : ∀ e ∈ entries, nm.valid e.1 = true) (d : Ds V) (h : create nm ok entries = .ok d) :
    assignAll ok entries Verif.DsOps.empty = some d := by
  have hs : ∀ e ∈ entries, setName nm e.1 = e.1 := fun e he => by unfold setName; rw [if_pos (ha e he)]
  have hd : (entries.map fun e => setName nm e.1).Nodup := by
    rw [List.map_congr_left hs]
    exact hn
  obtain ⟨_, hf, hr⟩ := (create_iff nm ok entries d hd).mp h
  have key : ∀ (l : List (String × Given V)) (c : List (String × List V)), (∀ e ∈ l, setName nm e.1 = e.1) → (l.map Prod.fst).Nodup →
      List.Forall₂ (Taken nm ok) l c → ∀ (nr : Option Nat) (cols : List (String × List V)), (∀ e ∈ l, e.1 ∉ cols.map Prod.fst) →
      (∀ x ∈ c, d.nrows = some x.2.length) → (nr = none ∨ nr = d.nrows) →
      assignAll ok l ⟨nr, cols⟩ = some ⟨if c = [] then nr else d.nrows, cols ++ c⟩ := by
    intro l c hl hnd hf
    induction hf with
    | nil =>
      intro nr cols _ _ _
      simp [assignAll]
    | @cons e x l c hh _ ih =>
      intro nr cols hnc hx hnr
      rw [List.map_cons, List.nodup_cons] at hnd
      have hx1 := hx x (by simp)
      have hone := assign_one ok ⟨nr, cols⟩ e.1 e.2 x.2 hh.2.2 (by rw [← hx1]; exact hnr) (hnc e (by simp))
      simp only [assignAll]
      rw [hone]
      dsimp only
      rw [ih (fun e he => hl e (List.mem_cons_of_mem _ he)) hnd.2 (some x.2.length) (cols ++ [(e.1, x.2)]) ?_
        (fun y hy => hx y (List.mem_cons_of_mem _ hy)) (Or.inr hx1.symm)]
      · have hxe : x = (e.1, x.2) := by
          have := hh.2.1
          rw [hl e (by simp)] at this
          rw [← this]
        rw [← hx1, ← hxe]
        simp
      · intro e' he'
        rw [List.map_append, List.mem_append, not_or]
        refine ⟨hnc e' (List.mem_cons_of_mem _ he'), ?_⟩
        intro hm
        simp only [List.map_cons, List.map_nil, List.mem_singleton] at hm
        exact hnd.1 (List.mem_map.mpr ⟨e', he', hm⟩)
  have := key entries d.cols hs hn hf none [] (by simp) hr.2 (Or.inl rfl)
  unfold Verif.DsOps.empty
  rw [this]
  obtain ⟨n, cols⟩ := d
  simp only [List.nil_append]
  by_cases hc : cols = []
  · have hn' : n = none := hr.1 hc
    rw [if_pos hc, hn']
  · rw [if_neg hc]

/-- `sum` is the name of a method -/
def names : Names := ⟨fun n => n == "_x", fun n => n != "sum", fun n => n == "sum", fun _ => "Sum"⟩
/-- all arrays can be converted -/
def any : List Nat → Bool := fun _ => true

/-- the hypotheses can be met -/
example : create names any [("a", .list [1, 2]), ("b", .array [3, 4])] = .ok ⟨some 2, [("a", [1, 2]), ("b", [3, 4])]⟩ := by decide +kernel

/-- **C344** (counterexample) Of "sum" and "Sum" one column is lost, also when they have different numbers of rows. -/
theorem create_counterexample :
    create names any [("sum", .list [1, 2]), ("Sum", .array [3, 4, 5])] = .ok ⟨some 3, [("Sum", [3, 4, 5])]⟩ := by decide +kernel

/-- **C346** (counterexample) A single value, a list of one value and a tuple are assigned but not taken from a dictionary. -/
theorem same_counterexample :
    (create names any [("a", .list [1, 2]), ("b", .scalar 7)] = .error .rows ∧
      assignAll any [("a", .list [1, 2]), ("b", .scalar 7)] Verif.DsOps.empty = some ⟨some 2, [("a", [1, 2]), ("b", [7, 7])]⟩) ∧
    (create names any [("a", .tuple [1, 2])] = .error .type ∧
      assignAll any [("a", .tuple [1, 2])] Verif.DsOps.empty = some ⟨some 2, [("a", [1, 2])]⟩) := by decide +kernel
end Verif.DsNew
