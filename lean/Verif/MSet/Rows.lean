import Verif.MSet.Dict
/-!
# Multisets: numbers of rows, assignment, cascades
-/
namespace Verif.MSet

variable {A : Type}

/-- all containers have the same number of rows, which the Multiset reports -/
def SameRows (rows : A → Option Nat) (m : Multi A) : Prop :=
  (m.items = [] ∧ m.nrows = none) ∨ (m.items ≠ [] ∧ ∃ n, 0 < n ∧ m.nrows = some n ∧ ∀ p ∈ m.items, rows p.2 = some n)

/-- operations of a user -/
inductive Op (A : Type)
  | attr (k : Name) (v : A)
  | item (k : Name) (v : A)
  | items (ks : List Name) (vs : List A)
  | del (k : Name)

/-- the Multiset after an operation; an exception leaves it as it was, except for what the loop had already done -/
def step (rows : A → Option Nat) (method valid : Name → Bool) (m : Multi A) : Op A → Multi A
  | .attr k v => (setAttr rows method m k v).getD m
  | .item k v => (setItem rows method valid m k v).getD m
  | .items ks vs => (setItems rows method m ks vs).1
  | .del k => (delItem m k).getD m

/-- containers with at least one row -/
def HasRows (rows : A → Option Nat) (v : A) : Prop := ∃ n, rows v = some (n + 1)

/-- what an operation is given has rows, and an attribute is not assigned to a Multiset without items -/
def Careful (rows : A → Option Nat) (m : Multi A) : Op A → Prop
  | .attr _ v => HasRows rows v ∧ m.items ≠ []
  | .item _ v => HasRows rows v
  | .items _ vs => ∀ v ∈ vs, HasRows rows v
  | .del _ => True

theorem mem_put {d : List (Name × A)} {k : Name} {v : A} {p : Name × A} (h : p ∈ put d k v) : p ∈ d ∨ p = (k, v) := by
  unfold put at h
  split at h
  · obtain ⟨q, hq, he⟩ := List.mem_map.1 h
    by_cases hk : q.1 = k
    · rw [if_pos hk] at he; exact Or.inr he.symm
    · rw [if_neg hk] at he; exact Or.inl (he ▸ hq)
  · rcases List.mem_append.1 h with h | h
    · exact Or.inl h
    · exact Or.inr (by simpa using h)

theorem put_ne_nil (d : List (Name × A)) (k : Name) (v : A) : put d k v ≠ [] := by
  unfold put
  split
  · rename_i h
    intro he
    rw [List.map_eq_nil_iff] at he
    rw [he] at h; simp [names] at h
  · simp

theorem clash_some (n : Nat) (hn : 0 < n) (r : Option Nat) : clash (some n) r = decide (r ≠ some n) := by
  cases n with
  | zero => omega
  | succ n => rfl

theorem clash_none (r : Option Nat) : clash none r = false := rfl

theorem clash_zero (r : Option Nat) : clash (some 0) r = false := rfl

/-- replacing or adding a container with the right number of rows -/
theorem sameRows_put {rows : A → Option Nat} {m : Multi A} {k : Name} {v : A} {n : Nat} (hn : 0 < n)
    (hm : ∀ p ∈ m.items, rows p.2 = some n) (hv : rows v = some n) : SameRows rows ⟨put m.items k v, some n⟩ := by
  refine Or.inr ⟨put_ne_nil _ _ _, n, hn, rfl, fun p hp => ?_⟩
  rcases mem_put hp with h | h
  · exact hm p h
  · rw [h]; exact hv

theorem setLoop_sameRows (rows : A → Option Nat) (method : Name → Bool) (l : List (Name × A)) (m : Multi A)
    (hm : SameRows rows m) (hl : ∀ p ∈ l, HasRows rows p.2 ∧ p.1 ∈ names m.items) :
    SameRows rows (setLoop rows method m l).1 := by
  induction l generalizing m with
  | nil => exact hm
  | cons p l ih =>
    unfold setLoop
    split
    · exact hm
    · rename_i hc
      have hp := hl p List.mem_cons_self
      unfold setAttr
      rw [if_neg (fun h => h.1 hp.2), if_neg hc]
      obtain ⟨hne, n, hn, hr, ha⟩ : m.items ≠ [] ∧ ∃ n, 0 < n ∧ m.nrows = some n ∧ ∀ p ∈ m.items, rows p.2 = some n := by
        rcases hm with hm | hm
        · rw [hm.1] at hp; simp [names] at hp
        · exact hm
      rw [hr, clash_some n hn] at hc
      have hv : rows p.2 = some n := by simpa using hc
      refine ih _ ?_ fun q hq => ⟨(hl q (List.mem_cons_of_mem _ hq)).1, ?_⟩
      · rw [hv]; exact sameRows_put hn ha hv
      · rw [mem_names_put]; exact Or.inr (hl q (List.mem_cons_of_mem _ hq)).2

/-- **C146** operations with containers that have rows keep the numbers of rows equal -/
theorem step_sameRows (rows : A → Option Nat) (method valid : Name → Bool) (hmv : ∀ k, valid k = true → method k = false)
    (m : Multi A) (hm : SameRows rows m) (op : Op A) (hop : Careful rows m op) : SameRows rows (step rows method valid m op) := by
  have hcl : ∀ (n : Nat) (v : A), 0 < n → m.nrows = some n → ¬ clash m.nrows (rows v) = true → rows v = some n := by
    intro n v hn hr hc
    rw [hr, clash_some n hn] at hc
    simpa using hc
  cases op with
  | attr k v =>
    rcases hm with hm | hm
    · exact absurd hm.1 hop.2
    · obtain ⟨_, n, hn, hr, ha⟩ := hm
      simp only [step, setAttr]
      split
      · exact Or.inr ⟨hop.2, n, hn, hr, ha⟩
      · split
        · exact Or.inr ⟨hop.2, n, hn, hr, ha⟩
        · rename_i hc
          simp only [Option.getD_some]
          have := sameRows_put (k := k) hn ha (hcl n v hn hr hc)
          rwa [← hr] at this
  | item k v =>
    simp only [step, setItem]
    split
    · exact hm
    · rename_i hc
      split
      · rename_i hk
        have hmeth : ¬ (k ∉ names m.items ∧ method k = true) := by
          rintro ⟨h1, h2⟩
          rcases hk with hk | hk
          · exact h1 hk
          · rw [hmv k hk] at h2; exact absurd h2 (by simp)
        unfold setAttr
        rw [if_neg hmeth, if_neg hc]
        simp only [Option.map_some, Option.getD_some]
        obtain ⟨n, hn⟩ := hop
        rw [hn]
        rcases hm with hm | hm
        · exact sameRows_put (by omega) (by rw [hm.1]; simp) hn
        · obtain ⟨_, n', hn', hr, ha⟩ := hm
          have := hcl n' v hn' hr hc
          rw [hn] at this
          rw [this]
          exact sameRows_put hn' ha (by rw [hn, this])
      · exact hm
  | items ks vs =>
    simp only [step, setItems]
    split
    · rename_i hk
      refine setLoop_sameRows rows method _ m hm fun p hp => ?_
      have h1 := List.of_mem_zip hp
      rw [List.all_eq_true] at hk
      exact ⟨hop p.2 h1.2, by simpa using hk p.1 h1.1⟩
    · exact hm
  | del k =>
    simp only [step, delItem]
    split
    · simp only [Option.getD_some]
      by_cases hl : (m.items.filter fun p => decide (p.1 ≠ k)) = []
      · left; exact ⟨hl, if_pos hl⟩
      · right
        rcases hm with hm | hm
        · rw [hm.1] at hl; simp at hl
        · obtain ⟨_, n, hn, hr, ha⟩ := hm
          exact ⟨hl, n, hn, by rw [if_neg hl, hr], fun p hp => ha p (List.mem_filter.1 hp).1⟩
    · exact hm

/-- **C146** the constructor accepts exactly equal numbers of rows -/
theorem init_sameRows (rows : A → Option Nat) (d : List (Name × A)) (hd : ∀ p ∈ d, HasRows rows p.2)
    (hu : ∀ p ∈ d, p.1.head? ≠ some '_') (hn : (names d).Nodup) :
    ((∃ n, ∀ p ∈ d, rows p.2 = some n) → ∃ m, init rows d = some m ∧ m.items = d ∧ SameRows rows m) ∧
      ((¬ ∃ n, ∀ p ∈ d, rows p.2 = some n) → init rows d = none) := by
  have hnone : ∀ l : List (Name × A), l.foldl (initStep rows) none = none := by
    intro l; induction l with
    | nil => rfl
    | cons p l ih => rw [List.foldl_cons]; exact ih
  have hloop : ∀ (l : List (Name × A)) (it : List (Name × A)) (n : Nat), 0 < n → (∀ p ∈ l, p.1.head? ≠ some '_') →
      (names l).Nodup → (∀ k ∈ names l, k ∉ names it) →
      (l.foldl (initStep rows) (some ⟨it, some n⟩) =
        if ∀ p ∈ l, rows p.2 = some n then some ⟨it ++ l, some n⟩ else none) := by
    intro l
    induction l with
    | nil => intros; simp
    | cons p l ih =>
      intro it n hn hu hnd hdis
      rw [List.foldl_cons]
      obtain ⟨k, rfl⟩ : ∃ k, n = k + 1 := ⟨n - 1, by omega⟩
      by_cases hp : rows p.2 = some (k + 1)
      · have hs : initStep rows (some ⟨it, some (k + 1)⟩) p = some ⟨it ++ [p], some (k + 1)⟩ := by
          unfold initStep
          simp only [Option.bind_some]
          rw [if_neg (hu p List.mem_cons_self), if_neg (by rw [clash_some _ hn]; simp [hp]),
            put_new (hdis p.1 (by simp [names]))]
        rw [hs, ih _ _ hn (fun q hq => hu q (List.mem_cons_of_mem _ hq)) (by simp only [names, List.map_cons, List.nodup_cons] at hnd; exact hnd.2)
          (fun q hq => by
            simp only [names, List.map_append, List.mem_append, List.map_cons, List.map_nil, List.mem_singleton, not_or]
            refine ⟨hdis q (by simp only [names, List.map_cons, List.mem_cons]; exact Or.inr hq), ?_⟩
            rintro rfl
            simp only [names, List.map_cons, List.nodup_cons] at hnd
            exact hnd.1 hq)]
        by_cases h : ∀ q ∈ l, rows q.2 = some (k + 1)
        · rw [if_pos h, if_pos (by intro q hq; rcases List.mem_cons.1 hq with rfl | hq; exact hp; exact h q hq)]
          simp
        · rw [if_neg h, if_neg (fun h' => h fun q hq => h' q (List.mem_cons_of_mem _ hq))]
      · have hs : initStep rows (some ⟨it, some (k + 1)⟩) p = none := by
          unfold initStep
          simp only [Option.bind_some]
          rw [if_neg (hu p List.mem_cons_self), if_pos (by rw [clash_some _ hn]; simp [hp])]
        rw [hs, hnone, if_neg (fun h' => hp (h' p List.mem_cons_self))]
  cases d with
  | nil => exact ⟨fun _ => ⟨⟨[], none⟩, rfl, rfl, Or.inl ⟨rfl, rfl⟩⟩, fun h => absurd ⟨0, by simp⟩ h⟩
  | cons p d =>
    obtain ⟨k, hk⟩ := hd p List.mem_cons_self
    have hfold : (p :: d).foldl (initStep rows) (some ⟨[], some 0⟩) =
        if ∀ q ∈ d, rows q.2 = some (k + 1) then some ⟨p :: d, some (k + 1)⟩ else none := by
      rw [List.foldl_cons]
      have hs : initStep rows (some ⟨[], some 0⟩) p = some ⟨[p], some (k + 1)⟩ := by
        unfold initStep
        simp only [Option.bind_some]
        rw [if_neg (hu p List.mem_cons_self), if_neg (by simp [clash_zero]), hk]
        rfl
      simp only [names, List.map_cons, List.nodup_cons] at hn
      rw [hs, hloop d [p] (k + 1) (by omega) (fun q hq => hu q (List.mem_cons_of_mem _ hq)) hn.2
        (fun q hq => by simp only [names, List.map_cons, List.map_nil, List.mem_singleton]; rintro rfl; exact hn.1 hq)]
      rfl
    unfold init
    rw [hfold]
    constructor
    · rintro ⟨n, h⟩
      have hnk : n = k + 1 := by have := h p List.mem_cons_self; rw [hk] at this; simpa using this.symm
      rw [if_pos (fun q hq => by rw [← hnk]; exact h q (List.mem_cons_of_mem _ hq))]
      simp only [Option.map_some]
      rw [if_neg (by simp)]
      exact ⟨_, rfl, rfl, Or.inr ⟨by simp, k + 1, by omega, rfl, fun q hq => by rw [← hnk]; exact h q hq⟩⟩
    · intro h
      rw [if_neg]
      · rfl
      · intro h'
        exact h ⟨k + 1, fun q hq => by rcases List.mem_cons.1 hq with rfl | hq; exact hk; exact h' q hq⟩

/-- all operations of a history are careful -/
def CarefulAll (rows : A → Option Nat) (method valid : Name → Bool) : Multi A → List (Op A) → Prop
  | _, [] => True
  | m, op :: ops => Careful rows m op ∧ CarefulAll rows method valid (step rows method valid m op) ops

/-- **C146** after any history of assignments and deletions, with containers that have rows, all containers of a Multiset have the
number of rows it reports -/
theorem run_sameRows_partial (rows : A → Option Nat) (method valid : Name → Bool)
    (hmv : ∀ k, valid k = true → method k = false) (ops : List (Op A)) (m : Multi A) (hm : SameRows rows m)
    (hops : CarefulAll rows method valid m ops) : SameRows rows (ops.foldl (step rows method valid) m) := by
  induction ops generalizing m with
  | nil => exact hm
  | cons op ops ih => exact ih _ (step_sameRows rows method valid hmv m hm op hops.1) hops.2

/-- **C146** a container with another number of rows is refused, in all three ways to assign it -/
theorem assign_refused (rows : A → Option Nat) (method valid : Name → Bool) (m : Multi A) (hm : SameRows rows m)
    (hne : m.items ≠ []) (k : Name) (v : A) (hv : rows v ≠ m.nrows) (hk : k ∈ names m.items ∨ method k = false) :
    setAttr rows method m k v = none ∧ setItem rows method valid m k v = none ∧
      ∀ ks vs, setItems rows method m (k :: ks) (v :: vs) = (m, true) := by
  obtain ⟨_, n, hn, hr, _⟩ : m.items ≠ [] ∧ ∃ n, 0 < n ∧ m.nrows = some n ∧ ∀ p ∈ m.items, rows p.2 = some n := by
    rcases hm with h | h
    · exact absurd h.1 hne
    · exact h
  have hc : clash m.nrows (rows v) = true := by rw [hr, clash_some n hn]; simp; rw [← hr]; exact hv
  refine ⟨?_, ?_, ?_⟩
  · unfold setAttr
    rw [if_neg (fun h => by rcases hk with hk | hk; exact h.1 hk; rw [hk] at h; exact absurd h.2 (by simp)), if_pos hc]
  · unfold setItem; rw [if_pos hc]
  · intro ks vs
    unfold setItems
    split
    · rw [List.zip_cons_cons]; unfold setLoop; rw [if_pos hc]
    · rfl

/-- **C147** `ms[name] = value` changes exactly this item -/
theorem setItem_at (rows : A → Option Nat) (method valid : Name → Bool) (hmv : ∀ k, valid k = true → method k = false)
    (m m' : Multi A) (k : Name) (v : A) (h : setItem rows method valid m k v = some m') :
    m'.nrows = rows v ∧ (∀ k', at? m'.items k' = if k = k' then some v else at? m.items k') ∧
      names m'.items = if k ∈ names m.items then names m.items else names m.items ++ [k] := by
  unfold setItem at h
  split at h
  · exact absurd h (by simp)
  · rename_i hc
    split at h
    · rename_i hk
      unfold setAttr at h
      rw [if_neg (by rintro ⟨h1, h2⟩; rcases hk with hk | hk; exact h1 hk; rw [hmv k hk] at h2; exact absurd h2 (by simp)), if_neg hc] at h
      simp only [Option.map_some, Option.some.injEq] at h
      subst h
      exact ⟨rfl, fun k' => at?_put _ _ _ _, names_put _ _ _⟩
    · exact absurd h (by simp)

/-- **C147** assigning as many containers as names: every name gets its own one -/
theorem setItems_partial (rows : A → Option Nat) (method : Name → Bool) (m : Multi A) (hm : SameRows rows m)
    (ks : List Name) (vs : List A) (hlen : ks.length = vs.length) (hks : ks.Nodup) (hin : ∀ k ∈ ks, k ∈ names m.items)
    (hv : ∀ v ∈ vs, rows v = m.nrows) :
    ∃ m', setItems rows method m ks vs = (m', false) ∧ names m'.items = names m.items ∧
      (∀ p ∈ ks.zip vs, at? m'.items p.1 = some p.2) ∧ ∀ k ∉ ks, at? m'.items k = at? m.items k := by
  have hloop : ∀ (l : List (Name × A)) (m : Multi A), (names l).Nodup → (∀ p ∈ l, p.1 ∈ names m.items) →
      (∀ p ∈ l, rows p.2 = m.nrows) → ∃ m', setLoop rows method m l = (m', false) ∧ names m'.items = names m.items ∧
        (∀ p ∈ l, at? m'.items p.1 = some p.2) ∧ ∀ k ∉ names l, at? m'.items k = at? m.items k := by
    intro l
    induction l with
    | nil => intro m _ _ _; exact ⟨m, rfl, rfl, by simp, fun _ _ => rfl⟩
    | cons p l ih =>
      intro m hnd hin hr
      simp only [names, List.map_cons, List.nodup_cons] at hnd
      have hc : ¬ clash m.nrows (rows p.2) = true := by
        rw [hr p List.mem_cons_self]
        cases h : m.nrows with
        | none => simp [clash_none]
        | some n => cases n with
          | zero => simp [clash_zero]
          | succ n => simp [clash]
      have hp := hin p List.mem_cons_self
      have hnames : names (put m.items p.1 p.2) = names m.items := by rw [names_put, if_pos hp]
      obtain ⟨m', h1, h2, h3, h4⟩ := ih ⟨put m.items p.1 p.2, rows p.2⟩ hnd.2
        (fun q hq => by show q.1 ∈ names (put m.items p.1 p.2); rw [hnames]; exact hin q (List.mem_cons_of_mem _ hq))
        (fun q hq => by show rows q.2 = rows p.2; rw [hr q (List.mem_cons_of_mem _ hq), hr p List.mem_cons_self])
      refine ⟨m', ?_, h2.trans hnames, ?_, ?_⟩
      · unfold setLoop setAttr
        rw [if_neg hc, if_neg (fun h => h.1 hp), if_neg hc]
        exact h1
      · intro q hq
        rcases List.mem_cons.1 hq with rfl | hq
        · rw [h4 q.1 hnd.1, at?_put, if_pos rfl]
        · exact h3 q hq
      · intro k hk
        simp only [names, List.map_cons, List.mem_cons, not_or] at hk
        rw [h4 k hk.2, at?_put, if_neg (fun e => hk.1 e.symm)]
  have hz : names (ks.zip vs) = ks := by
    unfold names; exact List.map_fst_zip (by omega)
  obtain ⟨m', h1, h2, h3, h4⟩ := hloop (ks.zip vs) m (by rw [hz]; exact hks)
    (fun p hp => hin p.1 (List.of_mem_zip hp).1) (fun p hp => hv p.2 (List.of_mem_zip hp).2)
  refine ⟨m', ?_, h2, h3, fun k hk => h4 k (by rw [hz]; exact hk)⟩
  unfold setItems
  rw [if_pos (by rw [List.all_eq_true]; intro k hk; simpa using hin k hk)]
  exact h1

/-- results of a function under the same names -/
def tagged {B : Type} (f : A → Option B) (p : Name × A) : Option (Name × B) := (f p.2).map fun b => (p.1, b)

theorem mapM_tagged {B : Type} (f : A → Option B) (m : List (Name × A)) (t : List (Name × B)) (hn : (names m).Nodup) :
    m.mapM (tagged f) = some t ↔ names t = names m ∧ ∀ p ∈ m, ∃ b, f p.2 = some b ∧ at? t p.1 = some b := by
  induction m generalizing t with
  | nil =>
    simp only [List.mapM_nil, names, List.map_nil, List.map_eq_nil_iff, List.not_mem_nil, false_implies, implies_true, and_true]
    constructor
    · intro h; simpa using h.symm
    · rintro rfl; rfl
  | cons p m ih =>
    simp only [names, List.map_cons, List.nodup_cons] at hn
    rw [List.mapM_cons]
    constructor
    · intro h
      simp only [tagged] at h
      cases hf : f p.2 with
      | none => rw [hf] at h; simp at h
      | some b =>
        rw [hf] at h
        simp only [Option.map_some, Option.bind_eq_bind, Option.bind_some] at h
        cases hm : m.mapM (tagged f) with
        | none =>
          rw [hm] at h; simp at h
        | some t' =>
          rw [hm] at h
          simp only [Option.bind_some, Option.pure_def, Option.some.injEq] at h
          obtain ⟨h1, h2⟩ := (ih t' hn.2).1 hm
          subst h
          refine ⟨by simp only [names, List.map_cons] at h1 ⊢; rw [h1], fun q hq => ?_⟩
          rcases List.mem_cons.1 hq with rfl | hq
          · exact ⟨b, hf, by rw [at?_cons, if_pos rfl]⟩
          · obtain ⟨b', hb, hb'⟩ := h2 q hq
            refine ⟨b', hb, ?_⟩
            rw [at?_cons, if_neg]
            · exact hb'
            · intro e
              exact hn.1 (e ▸ List.mem_map_of_mem (f := Prod.fst) hq)
    · rintro ⟨h1, h2⟩
      cases t with
      | nil => simp [names] at h1
      | cons q t =>
        simp only [names, List.map_cons, List.cons.injEq] at h1
        obtain ⟨b, hb, hb'⟩ := h2 p List.mem_cons_self
        rw [at?_cons, if_pos h1.1] at hb'
        have hq : (p.1, b) = q := by
          rw [← h1.1]; simp only [Option.some.injEq] at hb'; rw [← hb']
        have hm := (ih t hn.2).2 ⟨h1.2, fun r hr => by
          obtain ⟨b', hb1, hb2⟩ := h2 r (List.mem_cons_of_mem _ hr)
          refine ⟨b', hb1, ?_⟩
          rw [at?_cons, if_neg] at hb2
          · exact hb2
          · rw [h1.1]; intro e; exact hn.1 (e ▸ List.mem_map_of_mem (f := Prod.fst) hr)⟩
        rw [hm]
        simp [tagged, hb, hq]

theorem cascade_loop {B : Type} (rows : B → Option Nat) (method valid : Name → Bool) (hmv : ∀ k, valid k = true → method k = false)
    (f : A → Option B) (l : List (Name × A)) (o out : Multi B) (ho : SameRows rows o) (hn : (names l).Nodup)
    (hdis : ∀ k ∈ names l, k ∉ names o.items) (hval : ∀ k ∈ names l, valid k = true)
    (hrows : ∀ p ∈ l, ∀ b, f p.2 = some b → HasRows rows b) :
    l.foldl (fun s p => s.bind fun out => (f p.2).bind fun b => setItem rows method valid out p.1 b) (some o) = some out ↔
      ∃ t, l.mapM (tagged f) = some t ∧ out.items = o.items ++ t ∧ SameRows rows out := by
  have hnone : ∀ l : List (Name × A),
      l.foldl (fun s p => s.bind fun out => (f p.2).bind fun b => setItem rows method valid out p.1 b) (none : Option (Multi B)) = none := by
    intro l; induction l with
    | nil => rfl
    | cons p l ih => rw [List.foldl_cons]; exact ih
  induction l generalizing o with
  | nil =>
    simp only [List.foldl_nil, Option.some.injEq, List.mapM_nil, Option.pure_def]
    constructor
    · rintro rfl; exact ⟨[], rfl, by simp, ho⟩
    · rintro ⟨t, rfl, h1, h2⟩
      simp only [List.append_nil] at h1
      rcases ho with ho | ho <;> rcases h2 with h2 | h2
      · cases o; cases out; simp_all
      · exact absurd (h1.trans ho.1) h2.1
      · exact absurd (h1.symm.trans h2.1) ho.1
      · obtain ⟨hne, n, _, hr, ha⟩ := ho
        obtain ⟨_, n', _, hr', ha'⟩ := h2
        obtain ⟨q, hq⟩ := List.exists_mem_of_ne_nil _ hne
        have e1 := ha q hq
        have e2 := ha' q (h1 ▸ hq)
        rw [e1] at e2
        cases o; cases out
        simp_all
  | cons p l ih =>
    simp only [names, List.map_cons, List.nodup_cons] at hn
    rw [List.foldl_cons, List.mapM_cons]
    cases hf : f p.2 with
    | none => simp only [Option.bind_some, Option.bind_none, hnone, tagged, hf]; simp
    | some b =>
      simp only [Option.bind_some, tagged, hf, Option.map_some, Option.bind_eq_bind]
      have hpn : p.1 ∉ names o.items := hdis p.1 (by simp [names])
      have hpv : valid p.1 = true := hval p.1 (by simp [names])
      obtain ⟨nb, hb⟩ := hrows p List.mem_cons_self b hf
      by_cases hc : clash o.nrows (rows b) = true
      · have : setItem rows method valid o p.1 b = none := by unfold setItem; rw [if_pos hc]
        rw [this, hnone]
        constructor
        · intro h; exact absurd h (by simp)
        · rintro ⟨t, ht, hi, hs⟩
          exfalso
          cases hm : l.mapM (tagged f) with
          | none => rw [hm] at ht; simp at ht
          | some t' =>
            rw [hm] at ht
            simp only [Option.bind_some, Option.pure_def, Option.some.injEq] at ht
            rcases ho with ho | ho
            · rw [ho.2, clash_none] at hc; exact absurd hc (by simp)
            · obtain ⟨hne, n, hn0, hr, ha⟩ := ho
              rw [hr, clash_some n hn0] at hc
              have hbn : rows b ≠ some n := by simpa using hc
              obtain ⟨q, hq⟩ := List.exists_mem_of_ne_nil _ hne
              rcases hs with hs | ⟨_, n', _, _, ha'⟩
              · rw [hi] at hs; simp [hne] at hs
              · have e1 := ha' q (by rw [hi]; exact List.mem_append_left _ hq)
                have e2 := ha' (p.1, b) (by rw [hi, ← ht]; simp)
                rw [ha q hq] at e1
                exact hbn (by rw [e2, ← e1])
      · have hset : setItem rows method valid o p.1 b = some ⟨o.items ++ [(p.1, b)], rows b⟩ := by
          unfold setItem setAttr
          rw [if_neg hc, if_pos (Or.inr hpv), if_neg (by rw [hmv _ hpv]; simp), if_neg hc, put_new hpn]
          rfl
        have hso : SameRows rows ⟨o.items ++ [(p.1, b)], rows b⟩ := by
          rw [hb]
          refine Or.inr ⟨by simp, nb + 1, by omega, rfl, fun q hq => ?_⟩
          rcases List.mem_append.1 hq with hq | hq
          · rcases ho with ho | ⟨_, n, hn0, hr, ha⟩
            · rw [ho.1] at hq; simp at hq
            · rw [hr, clash_some n hn0] at hc
              have : rows b = some n := by simpa using hc
              rw [ha q hq, ← this, hb]
          · simp only [List.mem_singleton] at hq; rw [hq]; exact hb
        have hih := ih ⟨o.items ++ [(p.1, b)], rows b⟩ hso hn.2 (fun k hk => by
          simp only [names, List.map_append, List.map_cons, List.map_nil, List.mem_append, List.mem_singleton, not_or]
          exact ⟨hdis k (by simp only [names, List.map_cons, List.mem_cons]; exact Or.inr hk), fun e => hn.1 (e ▸ hk)⟩)
          (fun k hk => hval k (by simp only [names, List.map_cons, List.mem_cons]; exact Or.inr hk))
          (fun q hq => hrows q (List.mem_cons_of_mem _ hq))
        rw [hset]
        refine hih.trans ?_
        constructor
        · rintro ⟨t, ht, hi, hs⟩
          refine ⟨(p.1, b) :: t, ?_, by rw [hi]; simp, hs⟩
          rw [ht]; rfl
        · rintro ⟨t, ht, hi, hs⟩
          cases hm : l.mapM (tagged f) with
          | none => rw [hm] at ht; simp at ht
          | some t' =>
            rw [hm] at ht
            simp only [Option.bind_some, Option.pure_def, Option.some.injEq] at ht
            exact ⟨t', rfl, by rw [hi, ← ht]; simp, hs⟩

/-- **C152** `cascade`: exactly the results of the function under the same names; if the numbers of rows of the results differ
there is no result -/
theorem cascade_exact {B : Type} (rows : B → Option Nat) (method valid : Name → Bool) (hmv : ∀ k, valid k = true → method k = false)
    (f : A → Option B) (m : List (Name × A)) (hn : (names m).Nodup) (hval : ∀ k ∈ names m, valid k = true)
    (hrows : ∀ p ∈ m, ∀ b, f p.2 = some b → HasRows rows b) (out : Multi B) :
    cascade rows method valid f m = some out ↔
      names out.items = names m ∧ (∀ p ∈ m, ∃ b, f p.2 = some b ∧ at? out.items p.1 = some b) ∧ SameRows rows out := by
  unfold cascade
  rw [cascade_loop rows method valid hmv f m ⟨[], none⟩ out (Or.inl ⟨rfl, rfl⟩) hn (by simp [names]) hval hrows]
  simp only [List.nil_append]
  constructor
  · rintro ⟨t, ht, hi, hs⟩
    obtain ⟨h1, h2⟩ := (mapM_tagged f m t hn).1 ht
    rw [hi]; exact ⟨h1, h2, hs⟩
  · rintro ⟨h1, h2, hs⟩
    exact ⟨out.items, (mapM_tagged f m out.items hn).2 ⟨h1, h2⟩, rfl, hs⟩

end Verif.MSet
