import Verif.GbCalc.Result
/-!
# Arrays given to an operation, and `agg`
-/
namespace Verif.GbCalc

variable {V : Type}

/-! ## Arrays -/

theorem names_zip {A : Type} (ns : List Name) (as : List A) (h : ns.length = as.length) : names (ns.zip as) = ns := by
  unfold names
  exact List.map_fst_zip (by omega)

theorem at?_zip {A : Type} (ns : List Name) (as : List A) (h : ns.length = as.length) (hn : ns.Nodup) (i : Nat) (m : Name) (a : A)
    (hm : ns[i]? = some m) (ha : as[i]? = some a) : at? (ns.zip as) m = some a := by
  refine at?_of_mem (by rw [names_zip ns as h]; exact hn) ?_
  refine List.mem_iff_getElem?.2 ⟨i, ?_⟩
  rw [List.getElem?_zip_eq_some]
  exact ⟨hm, ha⟩

/-- An operation of a Categorical on arrays given in a list or tuple: every array has its own result, under its name (the first
of the arrays with that name) or its name and a number. -/
theorem cat_arrays_partial (e : Env V) (own : Option (List (Name × Col V))) (f : Name) (tup : Bool) (l : List (Option Name × Col V))
    (rest : List (Arg V)) (hl : l ≠ []) (hk : (names e.gbkeys).Nodup) (hc : NoDigitClash (given (l.map Prod.fst))) :
    ∃ t, ∃ ns : List Name, catOp e own f {} (.arrays tup l :: rest) none = some t ∧ ns.length = l.length ∧ ns.Nodup ∧
      (∀ (i : Nat) n, (given (l.map Prod.fst))[i]? = some n → n ∉ (given (l.map Prod.fst)).take i → ns[i]? = some n) ∧
      (∀ (i : Nat) n, (given (l.map Prod.fst))[i]? = some n → ∃ ds : List Char, (∀ c ∈ ds, c.isDigit = true) ∧
        ns[i]? = some (n ++ ds)) ∧
      (∀ (i : Nat) nm a m y, l[i]? = some (nm, a) → ns[i]? = some m → m ∉ names e.gbkeys → accepts f a.kind = true →
        e.agg f a = some y → (∀ rows, e.isort = some rows → ∀ i ∈ rows, i < y.length) →
        ∃ v, at? t m = some v ∧ Shown e.isort y v) ∧
      (∀ k v, at? t k = some v → k ∈ ns ∨ k ∈ names e.gbkeys) := by
  have hlen : (headerNames (l.map Prod.fst)).length = (l.map Prod.snd).length := by rw [headers_length]; simp
  have hnd := headers_distinct _ hc
  have hnz : (names ((headerNames (l.map Prod.fst)).zip (l.map Prod.snd))).Nodup := by rw [names_zip _ _ hlen]; exact hnd
  have hp : prepare own false (.arrays tup l :: rest) none =
      some ((headerNames (l.map Prod.fst)).zip (l.map Prod.snd)) := by
    cases l with
    | nil => exact absurd rfl hl
    | cons x l =>
      have := dictOf_nodup hnz
      simp only [prepare, Bool.and_false, Bool.false_eq_true, if_false, this]
  refine ⟨_, headerNames (l.map Prod.fst), by unfold catOp; rw [hp]; rfl, by rw [headers_length]; simp, hnd, ?_, ?_, ?_, ?_⟩
  · intro i n hn hno
    rcases headers_names _ i n hn with ⟨_, h⟩ | ⟨h, _⟩
    · exact h
    · exact absurd h hno
  · intro i n hn
    rcases headers_names _ i n hn with ⟨_, h⟩ | ⟨_, k, h, _⟩
    · exact ⟨[], by simp, by simpa using h⟩
    · exact ⟨_, str_digits k, h⟩
  · intro i nm a m y hi hm hmk hac hy hr
    have hat : at? ((headerNames (l.map Prod.fst)).zip (l.map Prod.snd)) m = some a :=
      at?_zip _ _ hlen hnd i m a hm (by simp [hi])
    exact op_data e f {} none _ hnz hk rfl m a y hmk hat (fun _ h => by cases h) (Or.inr hac) hy hr
  · intro k v hv
    rcases op_only e f {} none _ hnz hk rfl rfl k v hv with h | ⟨c, _, h, _⟩
    · exact Or.inr ((at?_isSome _ _).1 ⟨v, h⟩)
    · left
      have := (at?_isSome _ _).1 ⟨c, h⟩
      rwa [names_zip _ _ hlen] at this

/-- An operation of a GroupBy on arrays given in a list: they are calculated beside the columns of the Dataset; an array with the
name of a column takes its place. -/
theorem gb_list_partial (e : Env V) (data : List (Name × Col V)) (f : Name) (l : List (Option Name × Col V)) (rest : List (Arg V))
    (hl : l ≠ []) (hn : (names data).Nodup) (hk : (names e.gbkeys).Nodup) (hc : NoDigitClash (given (l.map Prod.fst))) :
    ∃ t, ∃ ns : List Name, gbOp e data f {} (.arrays false l :: rest) none = some t ∧ ns.length = l.length ∧ ns.Nodup ∧
      (∀ (i : Nat) n, (given (l.map Prod.fst))[i]? = some n → n ∉ (given (l.map Prod.fst)).take i → ns[i]? = some n) ∧
      (∀ (i : Nat) nm a m y, l[i]? = some (nm, a) → ns[i]? = some m → m ∉ names e.gbkeys → accepts f a.kind = true →
        e.agg f a = some y → (∀ rows, e.isort = some rows → ∀ i ∈ rows, i < y.length) →
        ∃ v, at? t m = some v ∧ Shown e.isort y v) ∧
      (∀ k, k ∉ ns → at? t k = at? (calculate e f {} data) k) := by
  have hlen : (headerNames (l.map Prod.fst)).length = (l.map Prod.snd).length := by rw [headers_length]; simp
  have hnd := headers_distinct _ hc
  have hnz : (names ((headerNames (l.map Prod.fst)).zip (l.map Prod.snd))).Nodup := by rw [names_zip _ _ hlen]; exact hnd
  have hp : prepare (some data) true (.arrays false l :: rest) (some data) =
      some (((headerNames (l.map Prod.fst)).zip (l.map Prod.snd)).foldl (fun d p => put d p.1 p.2) data) := by
    cases l with
    | nil => exact absurd rfl hl
    | cons x l =>
      have := dictOf_nodup hnz
      simp only [prepare, Bool.false_and, Bool.false_eq_true, if_false, this]
  have hnf := nodup_foldl_put ((headerNames (l.map Prod.fst)).zip (l.map Prod.snd)) data hn
  have hat : ∀ k, at? (((headerNames (l.map Prod.fst)).zip (l.map Prod.snd)).foldl (fun d p => put d p.1 p.2) data) k =
      (at? ((headerNames (l.map Prod.fst)).zip (l.map Prod.snd)) k).or (at? data k) := by
    intro k
    rw [at?_foldl_put, at?_reverse hnz]
  refine ⟨_, headerNames (l.map Prod.fst), by unfold gbOp; simp only [Option.getD_none]; rw [hp]; rfl,
    by rw [headers_length]; simp, hnd, ?_, ?_, ?_⟩
  · intro i n hn hno
    rcases headers_names _ i n hn with ⟨_, h⟩ | ⟨h, _⟩
    · exact h
    · exact absurd h hno
  · intro i nm a m y hi hm hmk hac hy hr
    have hat' : at? ((headerNames (l.map Prod.fst)).zip (l.map Prod.snd)) m = some a :=
      at?_zip _ _ hlen hnd i m a hm (by simp [hi])
    exact op_data e f {} none _ hnf hk rfl m a y hmk (by rw [hat, hat']; rfl) (fun _ h => by cases h) (Or.inr hac) hy hr
  · intro k hkn
    by_cases hkk : k ∈ names e.gbkeys
    · rw [calculate_keys _ _ _ _ hk _ hkk, calculate_keys _ _ _ _ hk _ hkk]
    · have : at? ((headerNames (l.map Prod.fst)).zip (l.map Prod.snd)) k = none := by
        rw [at?_eq_none, names_zip _ _ hlen]; exact hkn
      rw [calculate_at _ _ _ _ hnf hk _ hkk, calculate_at _ _ _ _ hn hk _ hkk, hat, this, Option.none_or]

/-- A Dataset or dictionary given to an operation of a Categorical is calculated column by column; without an argument it is the
Dataset the Categorical was made from; without either the operation is refused. -/
theorem cat_table (e : Env V) (own : Option (List (Name × Col V))) (f : Name) (o : Opts) (t : List (Name × Col V))
    (rest : List (Arg V)) :
    catOp e own f o (.table t :: rest) none = some (calculate e f o t) ∧
      catOp e (some t) f o [] none = some (calculate e f o t) ∧ catOp e none f o [] none = none := ⟨rfl, rfl, rfl⟩

/-! ## `agg` -/

theorem capitalize_inj : ∀ a ∈ aggNames, ∀ b ∈ aggNames, capitalize a = capitalize b → a = b := by decide +kernel

theorem aggFunc_eq (it : Item) : aggFunc it = if it.op ∈ aggNames then some it.op else none := by
  cases it <;> rfl

/-- a list whose entries of a name all have the same value -/
theorem at?_const {A : Type} (d : List (Name × A)) (k : Name) (v : A) (hm : (k, v) ∈ d) (h : ∀ p ∈ d, p.1 = k → p.2 = v) :
    at? d k = some v := by
  obtain ⟨w, hw⟩ := (at?_isSome d k).2 (List.mem_map_of_mem (f := Prod.fst) hm)
  rw [hw]
  exact congrArg some (h (k, w) (mem_of_at? hw) rfl)

theorem foldl_put_some {A B : Type} (g : B → Option (Name × A)) (r : B → Name × A) (l : List B) (d : List (Name × A))
    (h : ∀ x ∈ l, g x = some (r x)) :
    l.foldl (fun ms x => ms.bind fun ms => (g x).map fun p => put ms p.1 p.2) (some d) =
      some ((l.map r).foldl (fun d p => put d p.1 p.2) d) := by
  induction l generalizing d with
  | nil => rfl
  | cons x l ih =>
    rw [List.foldl_cons, List.map_cons, List.foldl_cons, ← ih _ (fun y hy => h y (by simp [hy]))]
    simp [h x (by simp)]

theorem foldl_none {A B : Type} (g : A → B → Option A) (l : List B) :
    l.foldl (fun ms x => ms.bind fun ms => g ms x) none = none := by
  induction l with
  | nil => rfl
  | cons x l ih => simpa using ih

theorem foldl_bind_none {A B : Type} (g : A → B → Option A) (l : List B) (x : B) (hx : x ∈ l) (hg : ∀ a, g a x = none) (s : Option A) :
    l.foldl (fun ms x => ms.bind fun ms => g ms x) s = none := by
  induction l generalizing s with
  | nil => simp at hx
  | cons y l ih =>
    rw [List.foldl_cons]
    rcases List.mem_cons.1 hx with rfl | h
    · have : s.bind (fun ms => g ms x) = none := by cases s <;> simp [hg]
      rw [this, foldl_none]
    · exact ih h _

/-- the operations an `agg` can carry out -/
def Plain (f : Name) : Prop := f ∈ aggNames ∧ f ≠ "count".toList ∧ f ≠ "nth".toList

/-- `agg` with a list: one table per operation named, the result of that operation, and nothing else -/
theorem agg_list_partial (e : Env V) (data : List (Name × Col V)) (o : Opts) (items : List Item) (hp : ∀ it ∈ items, Plain it.op) :
    ∃ ms, aggList (fun f o => gbOp e data f o [] none) o items = some ms ∧
      (∀ it ∈ items, at? ms (capitalize it.op) = some (calculate e it.op o data)) ∧
      (∀ k ∈ names ms, ∃ it ∈ items, k = capitalize it.op) := by
  have hg : ∀ it ∈ items, ((aggFunc it).bind fun f => (aggCall (fun f o => gbOp e data f o [] none) f o).map fun t =>
      (capitalize f, t)) = some (capitalize it.op, calculate e it.op o data) := by
    intro it hit
    obtain ⟨h1, h2, h3⟩ := hp it hit
    rw [aggFunc_eq, if_pos h1]
    simp only [Option.bind_some, aggCall, h2, h3, or_self, if_false]
    rfl
  have he : aggList (fun f o => gbOp e data f o [] none) o items =
      some ((items.map fun it => (capitalize it.op, calculate e it.op o data)).foldl (fun d p => put d p.1 p.2) []) := by
    rw [← foldl_put_some _ _ items [] hg]
    unfold aggList
    congr 1
    funext ms it
    cases ms with
    | none => rfl
    | some ms =>
      simp only [Option.bind_some]
      cases aggFunc it with
      | none => rfl
      | some f =>
        simp only [Option.bind_some]
        cases aggCall (fun f o => gbOp e data f o [] none) f o <;> rfl
  refine ⟨_, he, ?_, ?_⟩
  · intro it hit
    rw [at?_foldl_put, at?_nil, Option.or_none]
    refine at?_const _ _ _ (List.mem_reverse.2 (List.mem_map.2 ⟨it, hit, rfl⟩)) ?_
    intro p hp' hpk
    obtain ⟨it', hit', rfl⟩ := List.mem_map.1 (List.mem_reverse.1 hp')
    rw [capitalize_inj _ (hp it' hit').1 _ (hp it hit).1 hpk]
  · intro k hk
    rw [names_foldl_put_mem] at hk
    rcases hk with hk | hk
    · obtain ⟨p, hp', rfl⟩ := List.mem_map.1 hk
      obtain ⟨it, hit, rfl⟩ := List.mem_map.1 hp'
      exact ⟨it, hit, rfl⟩
    · simp [names] at hk

/-! ### dictionaries -/

/-- the columns listed for an operation -/
theorem addTo_foldl (ps : List (Name × Name)) (d : List (Name × List Name)) (hd : (names d).Nodup) :
    (names (ps.foldl (fun d p => addTo d p.1 p.2) d)).Nodup ∧
      (∀ f, f ∈ names (ps.foldl (fun d p => addTo d p.1 p.2) d) ↔ f ∈ names d ∨ f ∈ ps.map Prod.fst) ∧
      ∀ f, (at? (ps.foldl (fun d p => addTo d p.1 p.2) d) f).getD [] =
        (at? d f).getD [] ++ (ps.filter fun p => decide (p.1 = f)).map Prod.snd := by
  induction ps generalizing d with
  | nil => exact ⟨hd, by simp, by simp⟩
  | cons p ps ih =>
    obtain ⟨h1, h2, h3⟩ := ih (addTo d p.1 p.2) (nodup_put hd)
    refine ⟨h1, fun f => ?_, fun f => ?_⟩
    · rw [List.foldl_cons, h2, addTo, mem_names_put, List.map_cons, List.mem_cons]
      constructor
      · rintro ((h | h) | h)
        · exact Or.inr (Or.inl h)
        · exact Or.inl h
        · exact Or.inr (Or.inr h)
      · rintro (h | h | h)
        · exact Or.inl (Or.inr h)
        · exact Or.inl (Or.inl h)
        · exact Or.inr h
    · rw [List.foldl_cons, h3, addTo, at?_put, List.filter_cons]
      by_cases h : p.1 = f
      · subst h; simp
      · simp [h]

/-- the pairs of operation and column asked for -/
def pairs (spec : List (Name × List Item)) : List (Name × Name) := spec.flatMap fun p => p.2.map fun it => (it.op, p.1)

theorem mem_pairs (spec : List (Name × List Item)) (f k : Name) : (f, k) ∈ pairs spec ↔ Asked spec f k := by
  unfold pairs Asked
  simp only [List.mem_flatMap, List.mem_map, Prod.mk.injEq]
  constructor
  · rintro ⟨p, hp, it, hit, rfl, rfl⟩
    exact ⟨p.2, hp, it, hit, rfl⟩
  · rintro ⟨items, hp, it, hit, rfl⟩
    exact ⟨(k, items), hp, it, hit, rfl, rfl⟩

theorem funcDict_eq (cols : List Name) (spec : List (Name × List Item)) (hc : ∀ p ∈ spec, p.1 ∈ cols)
    (hi : ∀ p ∈ spec, ∀ it ∈ p.2, it.op ∈ aggNames) :
    funcDict cols spec = some ((pairs spec).foldl (fun d p => addTo d p.1 p.2) []) := by
  have inner : ∀ (items : List Item) (k : Name) (d : List (Name × List Name)), (∀ it ∈ items, it.op ∈ aggNames) →
      items.foldl (fun d it => d.bind fun d => (aggFunc it).map fun f => addTo d f k) (some d) =
        some ((items.map fun it => (it.op, k)).foldl (fun d p => addTo d p.1 p.2) d) := by
    intro items k
    induction items with
    | nil => intros; rfl
    | cons it items ih =>
      intro d h
      rw [List.foldl_cons, List.map_cons, List.foldl_cons, ← ih _ (fun x hx => h x (by simp [hx])), aggFunc_eq,
        if_pos (h it (by simp))]
      rfl
  have outer : ∀ (spec : List (Name × List Item)) (d : List (Name × List Name)), (∀ p ∈ spec, p.1 ∈ cols) →
      (∀ p ∈ spec, ∀ it ∈ p.2, it.op ∈ aggNames) →
      spec.foldl (fun d p => d.bind fun d =>
        if p.1 ∈ cols then p.2.foldl (fun d it => d.bind fun d => (aggFunc it).map fun f => addTo d f p.1) (some d)
        else none) (some d) = some ((pairs spec).foldl (fun d p => addTo d p.1 p.2) d) := by
    intro spec
    induction spec with
    | nil => intros; rfl
    | cons p spec ih =>
      intro d h1 h2
      rw [List.foldl_cons, Option.bind_some, if_pos (h1 p (by simp)), inner p.2 p.1 d (h2 p (by simp)),
        ih _ (fun q hq => h1 q (by simp [hq])) (fun q hq => h2 q (by simp [hq]))]
      simp [pairs, List.flatMap_cons, List.foldl_append]
  exact outer spec [] hc hi

/-- `agg` with a dictionary: the table of an operation asked for has exactly the columns it is asked for, each as the operation
itself gives it; there are no tables of other operations -/
theorem agg_dict_partial (e : Env V) (data : List (Name × Col V)) (spec : List (Name × List Item)) (hn : (names data).Nodup)
    (hk : (names e.gbkeys).Nodup) (hc : ∀ p ∈ spec, p.1 ∈ names data) (hi : ∀ p ∈ spec, ∀ it ∈ p.2, Plain it.op) :
    ∃ ms, aggDict (fun f o => gbOp e data f o [] none) (names data) {} spec = some ms ∧
      (∀ f k, Asked spec f k → ∃ t, at? ms (capitalize f) = some t ∧
        (∀ k', k' ∉ names e.gbkeys → Asked spec f k' → at? t k' = at? (calculate e f {} data) k') ∧
        (∀ k', k' ∉ names e.gbkeys → ¬ Asked spec f k' → at? t k' = none) ∧
        (∀ k' ∈ names e.gbkeys, at? t k' = at? e.gbkeys k')) ∧
      (∀ n ∈ names ms, ∃ f k, Asked spec f k ∧ n = capitalize f) := by
  have hfd := funcDict_eq (names data) spec hc (fun p hp it hit => (hi p hp it hit).1)
  obtain ⟨h1, h2, h3⟩ := addTo_foldl (pairs spec) [] (by simp [names])
  have hplain : ∀ q ∈ (pairs spec).foldl (fun d p => addTo d p.1 p.2) [], Plain q.1 := by
    intro q hq
    have : q.1 ∈ names ((pairs spec).foldl (fun d p => addTo d p.1 p.2) []) := List.mem_map_of_mem (f := Prod.fst) hq
    rw [h2] at this
    rcases this with h | h
    · simp [names] at h
    · obtain ⟨p, hp, hpe⟩ := List.mem_map.1 h
      obtain ⟨items, hm, it, hit, ho⟩ := (mem_pairs spec p.1 p.2).1 hp
      rw [← hpe, ← ho]
      exact hi _ hm it hit
  generalize hgen : (pairs spec).foldl (fun d p => addTo d p.1 p.2) [] = fd at h1 h2 h3 hplain
  rw [hgen] at hfd
  have hg : ∀ q ∈ fd, ((aggCall (fun f o => gbOp e data f o [] none) q.1 { sel := some (.list q.2) }).map fun t =>
      (capitalize q.1, t)) = some (capitalize q.1, calculate e q.1 { sel := some (.list q.2) } data) := by
    intro q hq
    obtain ⟨_, g2, g3⟩ := hplain q hq
    simp only [aggCall, g2, g3, or_self, if_false]
    rfl
  have he : aggDict (fun f o => gbOp e data f o [] none) (names data) {} spec =
      some ((fd.map fun q => (capitalize q.1, calculate e q.1 { sel := some (.list q.2) } data)).foldl
        (fun d p => put d p.1 p.2) []) := by
    unfold aggDict
    rw [hfd, Option.bind_some, ← foldl_put_some _ _ fd [] hg]
    congr 1
    funext ms q
    cases ms with
    | none => rfl
    | some ms =>
      simp only [Option.bind_some]
      cases aggCall (fun f o => gbOp e data f o [] none) q.1 { sel := some (.list q.2) } <;> rfl
  refine ⟨_, he, ?_, ?_⟩
  · intro f k hask
    have hf : f ∈ names fd := (h2 f).2 (Or.inr (List.mem_map.2 ⟨(f, k), (mem_pairs spec f k).2 hask, rfl⟩))
    obtain ⟨cs, hcs⟩ := (at?_isSome fd f).2 hf
    have hmem := mem_of_at? hcs
    have hcs' : ∀ k', k' ∈ cs ↔ Asked spec f k' := by
      intro k'
      have := h3 f
      rw [hcs, at?_nil] at this
      simp only [Option.getD_some, Option.getD_none, List.nil_append] at this
      rw [this, ← mem_pairs]
      simp
    refine ⟨calculate e f { sel := some (.list cs) } data, ?_, ?_, ?_, ?_⟩
    · rw [at?_foldl_put, at?_nil, Option.or_none]
      refine at?_const _ _ _ (List.mem_reverse.2 (List.mem_map.2 ⟨(f, cs), hmem, rfl⟩)) ?_
      intro p hp hpk
      obtain ⟨q, hq, rfl⟩ := List.mem_map.1 (List.mem_reverse.1 hp)
      have hqf : q.1 = f := capitalize_inj _ (hplain q hq).1 _ (hplain _ hmem).1 hpk
      have : at? fd q.1 = some q.2 := at?_of_mem h1 hq
      rw [hqf, hcs] at this
      simp only [Option.some.injEq] at this
      rw [hqf, this]
    · intro k' hk' ha
      rw [calculate_at _ _ _ _ hn hk _ hk', calculate_at _ _ _ _ hn hk _ hk']
      simp [optHas, Sel.has, (hcs' k').2 ha]
    · intro k' hk' ha
      have : k' ∉ cs := fun h => ha ((hcs' k').1 h)
      rw [calculate_at _ _ _ _ hn hk _ hk']
      cases at? data k' <;> simp [optHas, Sel.has, this]
    · intro k' hk'
      exact calculate_keys _ _ _ _ hk _ hk'
  · intro n hnm
    rw [names_foldl_put_mem] at hnm
    rcases hnm with h | h
    · obtain ⟨p, hp, rfl⟩ := List.mem_map.1 h
      obtain ⟨q, hq, rfl⟩ := List.mem_map.1 hp
      have : q.1 ∈ names fd := List.mem_map_of_mem (f := Prod.fst) hq
      rw [h2] at this
      rcases this with h | h
      · simp [names] at h
      · obtain ⟨r, hr, hre⟩ := List.mem_map.1 h
        exact ⟨q.1, r.2, by rw [← hre]; exact (mem_pairs spec r.1 r.2).1 hr, rfl⟩
    · simp [names] at h

/-- a column that is not there, or something that is not an operation, is refused -/
theorem agg_refuses (op : Name → Opts → Option (List (Name × List V))) (cols : List Name) (o : Opts)
    (spec : List (Name × List Item)) (items : List Item) :
    ((∃ p ∈ spec, p.1 ∉ cols ∨ ∃ it ∈ p.2, it.op ∉ aggNames) → aggDict op cols o spec = none) ∧
      ((∃ it ∈ items, it.op ∉ aggNames) → aggList op o items = none) := by
  constructor
  · rintro ⟨p, hp, h⟩
    have : funcDict cols spec = none := by
      unfold funcDict
      refine foldl_bind_none (fun d p => if p.1 ∈ cols then
        p.2.foldl (fun d it => d.bind fun d => (aggFunc it).map fun f => addTo d f p.1) (some d) else none) spec p hp ?_ _
      intro d
      rcases h with h | ⟨it, hit, h⟩
      · simp [h]
      · have := foldl_bind_none (fun d it => (aggFunc it).map fun f => addTo d f p.1) p.2 it hit
          (fun d => by rw [aggFunc_eq, if_neg h]; rfl) (some d)
        split
        · exact this
        · rfl
    unfold aggDict
    rw [this]; rfl
  · rintro ⟨it, hit, h⟩
    unfold aggList
    exact foldl_bind_none (fun ms it => (aggFunc it).bind fun f => (aggCall op f o).map fun t => put ms (capitalize f) t) items it hit
      (fun d => by rw [aggFunc_eq, if_neg h]; rfl) (some [])

end Verif.GbCalc
