import Verif.GbCalc.Names
import Verif.Grp.Model
import Mathlib.Data.List.Nodup
/-!
# Quantiles of groups and counts per row: model and theorems

`GroupByOps._quantile` (`rt_groupbyops.py:1502-1715`), `_quantile_funcParam_from_q`, `_quantile_q_from_funcParam` (`:1717-1748`),
`rolling_quantile_funcParam` (`rt_utils.py:1172-1184`) and `Grouping.count(transform=True)` (`rt_grouping.py:3514-3550`).
-/
namespace Verif.GbCalc

/-! ## The parameter handed to the calculation -/

/-- `_quantile_funcParam_from_q` (`rt_groupbyops.py:1720-1733`) for the quantile `a / b`. `int(q * 1e9)` is the product rounded down;
the rounding of the floating point product itself is not modelled. -/
def quantParam (a b : Nat) (nan : Bool) : Nat := a * 10 ^ 9 / b + if nan then 10 ^ 9 + 1 else 0

/-- `_quantile_q_from_funcParam` (`:1736-1748`): the quantile in units of `1e-9`, and whether NaNs are left out -/
def quantDecode (p : Nat) : Nat × Bool := if 10 ^ 9 + 1 ≤ p then (p - (10 ^ 9 + 1), true) else (p, false)

/-- `rolling_quantile_funcParam` (`rt_utils.py:1172-1184`) -/
def rollingParam (a b window : Nat) : Nat := a * 10 ^ 9 / b + window * (10 ^ 9 + 1)

/-- the quantile (rounded down to `1e-9`) and the flag are read back, and the parameter fits into 32 bits -/
theorem quantParam_roundtrip (a b : Nat) (nan : Bool) (hb : 0 < b) (hab : a ≤ b) :
    ∃ m, quantDecode (quantParam a b nan) = (m, nan) ∧ m * b ≤ a * 10 ^ 9 ∧ a * 10 ^ 9 < (m + 1) * b ∧
      quantParam a b nan < 2 ^ 31 := by
  have h1 : a * 10 ^ 9 / b ≤ 10 ^ 9 := by
    calc a * 10 ^ 9 / b ≤ b * 10 ^ 9 / b := Nat.div_le_div_right (Nat.mul_le_mul_right _ hab)
      _ = 10 ^ 9 := by rw [Nat.mul_comm]; exact Nat.mul_div_cancel _ hb
  refine ⟨a * 10 ^ 9 / b, ?_, Nat.div_mul_le_self _ _, ?_, ?_⟩
  · cases nan with
    | true =>
      unfold quantDecode quantParam
      simp only [if_true]
      rw [if_pos (Nat.le_add_left _ _), Nat.add_sub_cancel]
    | false =>
      unfold quantDecode quantParam
      simp only [Bool.false_eq_true, if_false, Nat.add_zero]
      rw [if_neg (fun h => by generalize a * 10 ^ 9 / b = x at h h1; omega)]
  · have := Nat.lt_div_mul_add (a := a * 10 ^ 9) hb
    rw [Nat.add_mul, Nat.one_mul]; exact this
  · unfold quantParam
    generalize a * 10 ^ 9 / b = x at h1
    cases nan <;> simp only [Bool.false_eq_true, if_true, if_false] <;> omega

/-- window and quantile (rounded down to `1e-9`) of a rolling quantile can be read back from the parameter -/
theorem rollingParam_roundtrip (a b window : Nat) (hb : 0 < b) (hab : a ≤ b) :
    ∃ m, m * b ≤ a * 10 ^ 9 ∧ a * 10 ^ 9 < (m + 1) * b ∧ rollingParam a b window / (10 ^ 9 + 1) = window ∧
      rollingParam a b window % (10 ^ 9 + 1) = m := by
  have h1 : a * 10 ^ 9 / b ≤ 10 ^ 9 := by
    calc a * 10 ^ 9 / b ≤ b * 10 ^ 9 / b := Nat.div_le_div_right (Nat.mul_le_mul_right _ hab)
      _ = 10 ^ 9 := by rw [Nat.mul_comm]; exact Nat.mul_div_cancel _ hb
  refine ⟨a * 10 ^ 9 / b, Nat.div_mul_le_self _ _, ?_, ?_, ?_⟩
  · have := Nat.lt_div_mul_add (a := a * 10 ^ 9) hb
    rw [Nat.add_mul, Nat.one_mul]; exact this
  · unfold rollingParam
    rw [Nat.add_mul_div_right _ _ (by omega), Nat.div_eq_of_lt (by omega), Nat.zero_add]
  · unfold rollingParam
    rw [Nat.add_mul_mod_self_right, Nat.mod_eq_of_lt (by omega)]

/-! ## Several quantiles -/

/-- the precision of the loop `precision = 3; while …: precision += 1` (`:1657-1659`): the first one, from 3 on, with which the
texts differ; `fmt p q` is Python's `f"{q:.{p}g}"`. The search is given up after `bound` steps, where the code would go on. -/
def precision {Q : Type} (fmt : Nat → Q → Name) (qs : List Q) (bound : Nat) : Nat :=
  (((List.range bound).map (3 + ·)).find? fun p => decide ((qs.map (fmt p)).Nodup)).getD (3 + bound)

/-- `suffix_letter + f"…".replace(".", "_")` (`:1661-1662`) -/
def suffix {Q : Type} (letter : Name) (fmt : Nat → Q → Name) (p : Nat) (q : Q) : Name :=
  letter ++ (fmt p q).map fun c => if c = '.' then '_' else c

/-- length of the shortest list -/
def minLen {A : Type} : List (List A) → Nat
  | [] => 0
  | l :: ls => ls.foldl (fun n x => min n x.length) l.length

/-- `[c for column_set in zip(*lists) for c in column_set]` (`:1703`) -/
def interleave {A : Type} (ls : List (List A)) : List A := (List.range (minLen ls)).flatMap fun i => ls.filterMap fun l => l[i]?

/-- `col_move_to_front` (all names present) -/
def moveFront {A : Type} (d : List (Name × A)) (front : List Name) : List (Name × A) :=
  front.filterMap (fun k => (at? d k).map fun v => (k, v)) ++ d.filter fun p => decide (p.1 ∉ front)

/-- `_quantile` without `transform` (`:1586-1715`): `ans q` is the result for one quantile, `keys` the names of the keys. `none`
is an exception: no quantiles (`answers[0]`), or a repeated name (`concat_columns` raises, `rt_dataset.py:6996`). Footers (only
of `Accum2` tables) and Multisets are not modelled. -/
def quantMulti {V Q : Type} (keys : List Name) (letter : Name) (fmt : Nat → Q → Name) (bound : Nat)
    (ans : Q → List (Name × V)) (qs : List Q) : Option (List (Name × V)) :=
  match qs with
  | [] => none
  | [q] => some (ans q)
  | q0 :: q1 :: rest =>
    let p := precision fmt (q0 :: q1 :: rest) bound
    let parts := (q0 :: q1 :: rest).map fun q =>
      ((ans q).filter fun x => decide (x.1 ∉ keys)).map fun x => (x.1 ++ suffix letter fmt p q, x.2)
    let gb := keys.filterMap fun k => (at? (ans q0) k).map fun v => (k, v)
    let all := parts.flatten ++ gb
    if (names all).Nodup then some (moveFront all (interleave (parts.map names))) else none

/-! ### lemmas -/

theorem precision_distinct {Q : Type} (fmt : Nat → Q → Name) (qs : List Q) (bound d : Nat) (hd : d < bound)
    (h : (qs.map (fmt (3 + d))).Nodup) : (qs.map (fmt (precision fmt qs bound))).Nodup := by
  unfold precision
  cases hf : ((List.range bound).map (3 + ·)).find? fun p => decide ((qs.map (fmt p)).Nodup) with
  | some p =>
    have := List.find?_some hf
    simpa using this
  | none =>
    rw [List.find?_eq_none] at hf
    have := hf (3 + d) (List.mem_map.2 ⟨d, List.mem_range.2 hd, rfl⟩)
    simp [h] at this

/-- what is needed of Python's number format: neither `_` nor the letters of the suffixes occur -/
def PlainText (t : Name) : Prop := '_' ∉ t ∧ 'q' ∉ t ∧ 'p' ∉ t

theorem dots_inj {s t : Name} (hs : '_' ∉ s) (ht : '_' ∉ t)
    (h : s.map (fun c => if c = '.' then '_' else c) = t.map (fun c => if c = '.' then '_' else c)) : s = t := by
  induction s generalizing t with
  | nil => cases t <;> simp_all
  | cons a s ih =>
    cases t with
    | nil => simp at h
    | cons b t =>
      simp only [List.map_cons, List.cons.injEq, List.mem_cons, not_or] at h hs ht
      rw [ih hs.2 ht.2 h.2]
      congr 1
      by_cases ha : a = '.' <;> by_cases hb : b = '.'
      · rw [ha, hb]
      · have := h.1; rw [if_pos ha, if_neg hb] at this; exact absurd this ht.1
      · have := h.1; rw [if_neg ha, if_pos hb] at this; exact absurd this.symm hs.1
      · have := h.1; rwa [if_neg ha, if_neg hb] at this

/-- a name with a suffix determines the name and the text -/
theorem suffix_inj (x : Char) (hx : x ≠ '_') (n m s t : Name) (hs : x ∉ s) (ht : x ∉ t)
    (h : n ++ '_' :: x :: s = m ++ '_' :: x :: t) : n = m ∧ s = t := by
  have key : ∀ (n m s t : Name), x ∉ s → ∀ a, m = n ++ a → '_' :: x :: s = a ++ '_' :: x :: t → a = [] := by
    intro n m s t hs a _ hb
    rcases a with _ | ⟨c, _ | ⟨c', a⟩⟩
    · rfl
    · simp only [List.cons_append, List.nil_append, List.cons.injEq] at hb
      exact absurd hb.2.1 hx
    · simp only [List.cons_append, List.cons.injEq] at hb
      exfalso
      apply hs
      rw [hb.2.2]; simp
  rcases List.append_eq_append_iff.1 h with ⟨a, ha, hb⟩ | ⟨a, ha, hb⟩
  · have := key n m s t hs a ha hb
    subst this
    simp only [List.nil_append, List.cons.injEq, true_and] at hb
    exact ⟨by simpa using ha.symm, hb⟩
  · have := key m n t s ht a ha hb
    subst this
    simp only [List.nil_append, List.cons.injEq, true_and] at hb
    exact ⟨by simpa using ha, hb.symm⟩

theorem interleave_eq {A B C : Type} (xs : List B) (ls : List C) (g : B → C → A) (h : ls ≠ []) :
    interleave (ls.map fun c => xs.map fun b => g b c) = xs.flatMap fun b => ls.map fun c => g b c := by
  have hmin : ∀ (ls : List C) (n : Nat), n = xs.length → (ls.map fun c => xs.map fun b => g b c).foldl
      (fun n x => min n x.length) n = xs.length := by
    intro ls
    induction ls with
    | nil => intro n hn; simpa using hn
    | cons c ls ih => intro n hn; rw [List.map_cons, List.foldl_cons]; exact ih _ (by simp [hn])
  have hm : minLen (ls.map fun c => xs.map fun b => g b c) = xs.length := by
    cases ls with
    | nil => exact absurd rfl h
    | cons c ls => rw [List.map_cons]; exact hmin ls _ (by simp)
  unfold interleave
  rw [hm]
  have hstep : ∀ (ys : List B) (off : Nat), (∀ j : Nat, xs[off + j]? = ys[j]?) →
      ((List.range ys.length).flatMap fun i => (ls.map fun c => xs.map fun b => g b c).filterMap fun l => l[off + i]?) =
        ys.flatMap fun b => ls.map fun c => g b c := by
    intro ys
    induction ys with
    | nil => intros; rfl
    | cons y ys ih =>
      intro off hoff
      rw [List.length_cons, List.range_succ_eq_map, List.flatMap_cons, List.flatMap_cons, List.flatMap_map]
      congr 1
      · have h0 := hoff 0
        simp only [List.getElem?_cons_zero, Nat.add_zero] at h0
        rw [List.filterMap_map]
        have : (fun c => ((fun l : List A => l[off + 0]?) ∘ fun c => xs.map fun b => g b c) c) = fun c => some (g y c) := by
          funext c
          simp [h0]
        rw [show ((fun l : List A => l[off + 0]?) ∘ fun c => xs.map fun b => g b c) = fun c => some (g y c) from this]
        induction ls with
        | nil => rfl
        | cons c ls _ => simp [List.filterMap_eq_map']
      · have := ih (off + 1) (fun j => by rw [Nat.add_assoc, Nat.add_comm 1 j, hoff (j + 1)]; simp)
        rw [← this]
        refine List.flatMap_congr fun i _ => ?_
        rw [Nat.succ_eq_add_one, Nat.add_comm i 1, ← Nat.add_assoc]
  have := hstep xs 0 (fun j => by simp)
  simpa using this

theorem at?_filter_not {A : Type} (d : List (Name × A)) (front : List Name) (k : Name) :
    at? (d.filter fun p => decide (p.1 ∉ front)) k = if k ∈ front then none else at? d k := by
  induction d with
  | nil => simp [at?_nil]
  | cons p d ih =>
    rw [List.filter_cons, at?_cons]
    by_cases hp : p.1 ∈ front
    · simp only [hp, not_true_eq_false, decide_false, Bool.false_eq_true, if_false, ih]
      by_cases hk : k ∈ front
      · simp [hk]
      · have : p.1 ≠ k := fun e => hk (e ▸ hp)
        simp [hk, this]
    · simp only [hp, not_false_eq_true, decide_true, if_true, at?_cons, ih]
      by_cases hpk : p.1 = k
      · have : k ∉ front := hpk ▸ hp
        simp [hpk, this]
      · simp [hpk]

theorem at?_pick {A : Type} (d : List (Name × A)) (front : List Name) (k : Name) :
    at? (front.filterMap fun k => (at? d k).map fun v => (k, v)) k = if k ∈ front then at? d k else none := by
  induction front with
  | nil => simp [at?_nil]
  | cons a front ih =>
    rw [List.filterMap_cons]
    cases ha : at? d a with
    | none =>
      simp only [Option.map_none, ih, List.mem_cons]
      by_cases hka : k = a
      · subst hka; simp [ha]
      · simp [hka]
    | some v =>
      simp only [Option.map_some, at?_cons, ih, List.mem_cons]
      by_cases hka : a = k
      · subst hka; simp [ha]
      · have : ¬ k = a := fun e => hka e.symm
        simp [hka, this]

theorem at?_moveFront {A : Type} (d : List (Name × A)) (front : List Name) (k : Name) : at? (moveFront d front) k = at? d k := by
  unfold moveFront
  rw [at?_append, at?_pick, at?_filter_not]
  by_cases h : k ∈ front
  · simp [h]
  · simp [h]

theorem names_pick {A : Type} (d : List (Name × A)) (front : List Name) (h : ∀ k ∈ front, k ∈ names d) :
    names (front.filterMap fun k => (at? d k).map fun v => (k, v)) = front := by
  induction front with
  | nil => rfl
  | cons a front ih =>
    obtain ⟨v, hv⟩ := (at?_isSome d a).2 (h a (by simp))
    rw [List.filterMap_cons, hv]
    simp only [Option.map_some, names, List.map_cons]
    congr 1
    exact ih fun k hk => h k (by simp [hk])

theorem names_moveFront {A : Type} (d : List (Name × A)) (front : List Name) (h : ∀ k ∈ front, k ∈ names d) :
    names (moveFront d front) = front ++ (names d).filter fun k => decide (k ∉ front) := by
  have h1 := names_pick d front h
  unfold moveFront
  have : names (d.filter fun p => decide (p.1 ∉ front)) = (names d).filter fun k => decide (k ∉ front) := by
    simp only [names, List.filter_map]; rfl
  simp only [names, List.map_append] at h1 this ⊢
  rw [h1, this]

/-- Several quantiles: for every column the results of all quantiles side by side, each under its own name, then the keys. -/
theorem quant_columns {V Q : Type} (keys : List Name) (x : Char) (hx : x = 'q' ∨ x = 'p') (fmt : Nat → Q → Name) (bound : Nat)
    (ans : Q → List (Name × V)) (qs : List Q) (ns : List Name) (hq : 2 ≤ qs.length)
    (hans : ∀ q ∈ qs, ((names (ans q)).filter fun k => decide (k ∉ keys)) = ns) (hns : ns.Nodup)
    (hkn : keys.Nodup) (hkeys : ∀ q ∈ qs, ∀ k ∈ keys, k ∈ names (ans q))
    (hfmt : ∀ q ∈ qs, ∀ p, PlainText (fmt p q)) (hdist : ∃ d < bound, (qs.map (fmt (3 + d))).Nodup)
    (hclash : ∀ n ∈ ns, ∀ k ∈ keys, ∀ txt : Name, k ≠ n ++ '_' :: x :: txt) :
    ∃ t, ∃ nm : Name → Q → Name, quantMulti keys ['_', x] fmt bound ans qs = some t ∧
      names t = (ns.flatMap fun n => qs.map (nm n)) ++ keys ∧ (names t).Nodup ∧
      (∀ n q, ∃ txt, nm n q = n ++ '_' :: x :: txt) ∧
      (∀ n ∈ ns, ∀ q ∈ qs, at? t (nm n q) = at? (ans q) n) ∧
      (∀ k ∈ keys, ∃ q ∈ qs, at? t k = at? (ans q) k) := by
  obtain ⟨q0, q1, rest, rfl⟩ : ∃ q0 q1 rest, qs = q0 :: q1 :: rest := by
    rcases qs with _ | ⟨a, _ | ⟨b, r⟩⟩
    · simp at hq
    · simp at hq
    · exact ⟨a, b, r, rfl⟩
  generalize hqs : q0 :: q1 :: rest = qs at *
  have hq0 : q0 ∈ qs := by rw [← hqs]; simp
  obtain ⟨d, hd, hdn⟩ := hdist
  have hprec := precision_distinct fmt qs bound d hd hdn
  generalize hp : precision fmt qs bound = p at hprec
  have hxu : x ≠ '_' := by rcases hx with rfl | rfl <;> decide
  have hsuf : ∀ q, suffix ['_', x] fmt p q = '_' :: x :: (fmt p q).map fun c => if c = '.' then '_' else c := fun q => rfl
  have hnox : ∀ q ∈ qs, x ∉ (fmt p q).map fun c => if c = '.' then '_' else c := by
    intro q hq' hmem
    obtain ⟨c, hc, hce⟩ := List.mem_map.1 hmem
    have hpl := hfmt q hq' p
    by_cases hdot : c = '.'
    · rw [if_pos hdot] at hce; exact hxu hce.symm
    · rw [if_neg hdot] at hce
      subst hce
      rcases hx with rfl | rfl
      · exact hpl.2.1 hc
      · exact hpl.2.2 hc
  let part : Q → List (Name × V) := fun q =>
    ((ans q).filter fun x => decide (x.1 ∉ keys)).map fun y => (y.1 ++ suffix ['_', x] fmt p q, y.2)
  have hpart : ∀ q ∈ qs, names (part q) = ns.map fun n => n ++ suffix ['_', x] fmt p q := by
    intro q hq'
    rw [← hans q hq']
    simp only [part, names, List.map_map, List.filter_map]
    rfl
  have hnames : (qs.map part).map names = qs.map fun q => ns.map fun n => n ++ suffix ['_', x] fmt p q := by
    rw [List.map_map]
    exact List.map_congr_left fun q hq' => hpart q hq'
  let gb := keys.filterMap fun k => (at? (ans q0) k).map fun v => (k, v)
  have hgb : names gb = keys := names_pick (ans q0) keys (hkeys q0 hq0)
  have hall : names ((qs.map part).flatten ++ gb) =
      (qs.map fun q => ns.map fun n => n ++ suffix ['_', x] fmt p q).flatten ++ keys := by
    rw [← hnames]
    simp only [names, List.map_append, List.map_flatten] at hgb ⊢
    rw [hgb]; rfl
  have hinj : ∀ n m : Name, ∀ q ∈ qs, ∀ r ∈ qs, n ++ suffix ['_', x] fmt p q = m ++ suffix ['_', x] fmt p r → n = m ∧ fmt p q = fmt p r := by
    intro n m q hq' r hr h
    rw [hsuf, hsuf] at h
    obtain ⟨h1, h2⟩ := suffix_inj x hxu n m _ _ (hnox q hq') (hnox r hr) h
    exact ⟨h1, dots_inj (hfmt q hq' p).1 (hfmt r hr p).1 h2⟩
  have hnd1 : (qs.map fun q => ns.map fun n => n ++ suffix ['_', x] fmt p q).flatten.Nodup := by
    rw [List.nodup_flatten]
    constructor
    · intro l hl
      obtain ⟨q, _, rfl⟩ := List.mem_map.1 hl
      exact hns.map fun a b h => List.append_cancel_right h
    · rw [List.pairwise_map]
      have hp' : qs.Pairwise fun q r => fmt p q ≠ fmt p r := by
        have := hprec
        rw [List.nodup_iff_pairwise_ne, List.pairwise_map] at this
        exact this
      refine List.Pairwise.imp_of_mem ?_ hp'
      intro q r hq' hr hne a ha hb
      obtain ⟨n, _, rfl⟩ := List.mem_map.1 ha
      obtain ⟨m, _, hm⟩ := List.mem_map.1 hb
      exact hne (hinj m n r hr q hq' hm).2.symm
  have hnd : (names ((qs.map part).flatten ++ gb)).Nodup := by
    rw [hall, List.nodup_append]
    refine ⟨hnd1, hkn, ?_⟩
    intro a ha b hb e
    obtain ⟨l, hl, hal⟩ := List.mem_flatten.1 ha
    obtain ⟨q, _, rfl⟩ := List.mem_map.1 hl
    obtain ⟨n, hn, rfl⟩ := List.mem_map.1 hal
    exact hclash n hn b hb _ (by rw [← e, hsuf])
  have hfront : interleave ((qs.map part).map names) = ns.flatMap fun n => qs.map fun q => n ++ suffix ['_', x] fmt p q := by
    rw [hnames]
    exact interleave_eq ns qs (fun n q => n ++ suffix ['_', x] fmt p q) (by rw [← hqs]; simp)
  have hmemfront : ∀ k, k ∈ (ns.flatMap fun n => qs.map fun q => n ++ suffix ['_', x] fmt p q) ↔
      k ∈ (qs.map fun q => ns.map fun n => n ++ suffix ['_', x] fmt p q).flatten := by
    intro k
    simp only [List.mem_flatMap, List.mem_map, List.mem_flatten]
    constructor
    · rintro ⟨n, hn, q, hq', rfl⟩
      exact ⟨_, ⟨q, hq', rfl⟩, List.mem_map.2 ⟨n, hn, rfl⟩⟩
    · rintro ⟨_, ⟨q, hq', rfl⟩, h⟩
      obtain ⟨n, hn, rfl⟩ := List.mem_map.1 h
      exact ⟨n, hn, q, hq', rfl⟩
  have hfin : names (moveFront ((qs.map part).flatten ++ gb) (interleave ((qs.map part).map names))) =
      (ns.flatMap fun n => qs.map fun q => n ++ suffix ['_', x] fmt p q) ++ keys := by
    rw [hfront, names_moveFront]
    · congr 1
      rw [hall, List.filter_append]
      have h1 : ((qs.map fun q => ns.map fun n => n ++ suffix ['_', x] fmt p q).flatten.filter fun k =>
          decide (k ∉ ns.flatMap fun n => qs.map fun q => n ++ suffix ['_', x] fmt p q)) = [] := by
        rw [List.filter_eq_nil_iff]
        intro k hk
        simp [(hmemfront k).2 hk]
      have h2 : (keys.filter fun k =>
          decide (k ∉ ns.flatMap fun n => qs.map fun q => n ++ suffix ['_', x] fmt p q)) = keys := by
        rw [List.filter_eq_self]
        intro k hk
        rw [decide_eq_true_eq, hmemfront]
        intro hkf
        rw [hall, List.nodup_append] at hnd
        exact hnd.2.2 k hkf k hk rfl
      rw [h1, h2, List.nil_append]
    · intro k hk
      rw [hall]
      exact List.mem_append_left _ ((hmemfront k).1 hk)
  refine ⟨moveFront ((qs.map part).flatten ++ gb) (interleave ((qs.map part).map names)),
    fun n q => n ++ suffix ['_', x] fmt p q, ?_, hfin, ?_, ?_, ?_, ?_⟩
  · rw [← hqs] at hnd hp ⊢
    simp only [quantMulti, hp]
    exact if_pos hnd
  · rw [hfin, List.nodup_append]
    rw [hall, List.nodup_append] at hnd
    refine ⟨?_, hkn, fun a ha b hb => hnd.2.2 a ((hmemfront a).1 ha) b hb⟩
    rw [List.nodup_flatMap]
    constructor
    · intro n hn
      have : (qs.map (fmt p)).Nodup := hprec
      rw [List.nodup_iff_pairwise_ne, List.pairwise_map] at this ⊢
      exact List.Pairwise.imp_of_mem (fun hq' hr hne e => hne (hinj n n _ hq' _ hr e).2) this
    · refine List.Pairwise.imp_of_mem ?_ hns
      intro n m _ _ hne a ha hb
      obtain ⟨q, hq', rfl⟩ := List.mem_map.1 ha
      obtain ⟨r, hr, hm⟩ := List.mem_map.1 hb
      exact hne (hinj m n r hr q hq' hm).1.symm
  · exact fun n q => ⟨_, rfl⟩
  · intro n hn q hq'
    rw [at?_moveFront]
    have hmem : n ∈ names (ans q) := by
      have := hans q hq'
      rw [← this] at hn
      exact (List.mem_filter.1 hn).1
    obtain ⟨v, hv⟩ := (at?_isSome (ans q) n).2 hmem
    rw [hv]
    refine at?_of_mem hnd (List.mem_append_left _ (List.mem_flatten.2 ⟨part q, List.mem_map.2 ⟨q, hq', rfl⟩, ?_⟩))
    refine List.mem_map.2 ⟨(n, v), List.mem_filter.2 ⟨mem_of_at? hv, ?_⟩, rfl⟩
    have := hans q hq'
    rw [← this] at hn
    exact (List.mem_filter.1 hn).2
  · intro k hk
    refine ⟨q0, hq0, ?_⟩
    rw [at?_moveFront]
    obtain ⟨v, hv⟩ := (at?_isSome (ans q0) k).2 (hkeys q0 hq0 k hk)
    rw [hv]
    refine at?_of_mem hnd (List.mem_append_right _ ?_)
    have : at? gb k = some v := by
      show at? (keys.filterMap fun k => (at? (ans q0) k).map fun v => (k, v)) k = some v
      rw [at?_pick, if_pos hk, hv]
    exact mem_of_at? this

/-! ## Counts per row -/

/-- `Grouping.count(filter=…, transform=True)` (`rt_grouping.py:3523-3548`) for bins numbered from 1, not showing filtered rows:
`countcol[self.ikey - 1]`. The counts are those of the rows the filter keeps. -/
def countRows (ikey : List Nat) (n : Nat) (filter : Option (List Bool)) : List (Option Nat) :=
  let col := (Verif.Grp.binCount (Verif.Grp.masked ikey filter) n).drop 1
  ikey.map fun g : Nat => Verif.Grp.mbget col ((g : Int) - 1)

/-- every row that is in a group gets the number of (kept) rows of its group -/
theorem countRows_partial (ikey : List Nat) (n : Nat) (filter : Option (List Bool)) (i g : Nat) (hi : ikey[i]? = some g)
    (h1 : 1 ≤ g) (h2 : g ≤ n) :
    (countRows ikey n filter)[i]? = some (some ((Verif.Grp.masked ikey filter).filter fun k => decide (k = g)).length) := by
  unfold countRows
  simp only [List.getElem?_map, hi, Option.map_some]
  congr 1
  unfold Verif.Grp.mbget Verif.Cat.npGet
  rw [if_pos (by omega)]
  have e : ((g : Int) - 1).toNat = g - 1 := by omega
  rw [e, List.getElem?_drop, show 1 + (g - 1) = g by omega]
  unfold Verif.Grp.binCount
  rw [List.getElem?_map, List.getElem?_range (by omega), Option.map_some, List.count_eq_length_filter]
  congr 2

end Verif.GbCalc
