import Verif.MSet.Dict
/-!
# Display of Multisets: the two lines of headers and the arrays below
-/
namespace Verif.MSet

variable {A : Type}

/-- the Datasets that have a column, with the column -/
def having (k : Name) (items : List (Name × List (Name × A))) : List (Name × A) :=
  items.filterMap fun p => (at? p.2 k).map fun w => (p.1, w)

/-- names of all columns, in order of first appearance -/
def allCols (items : List (Name × List (Name × A))) : List Name := firsts (items.flatMap fun p => names p.2)

/-- what is to be shown: every name of a column once, above all Datasets that have it, in order, with the column of this Dataset -/
def Shows (items : List (Name × List (Name × A))) (h : Header A) : Prop :=
  h.top = (allCols items).map (fun k => (k, (having k items).length)) ∧
    h.bottom = (allCols items).flatMap (fun k => names (having k items)) ∧
    h.arrays = (allCols items).flatMap fun k => (having k items).map Prod.snd

theorem firsts_filter (p : Name → Bool) (l : List Name) : firsts (l.filter p) = (firsts l).filter p := by
  induction l with
  | nil => rfl
  | cons a l ih =>
    rw [List.filter_cons]
    by_cases h : p a = true
    · rw [if_pos h, firsts, firsts, List.filter_cons, if_pos h, ih, List.filter_filter, List.filter_filter]
      congr 1
      apply List.filter_congr
      intro b _
      exact Bool.and_comm _ _
    · rw [if_neg h, ih, firsts, List.filter_cons, if_neg h, List.filter_filter]
      apply List.filter_congr
      intro b _
      by_cases hb : b = a
      · subst hb; simp [h]
      · simp [hb]

theorem firsts_append (d l : List Name) (hd : d.Nodup) : firsts (d ++ l) = d ++ (firsts l).filter fun k => decide (k ∉ d) := by
  induction d with
  | nil => simp
  | cons a d ih =>
    simp only [List.nodup_cons] at hd
    rw [List.cons_append, firsts, ih hd.2, List.filter_append, List.filter_filter]
    rw [List.cons_append]
    congr 1
    congr 1
    · rw [List.filter_eq_self]
      intro b hb
      simp only [decide_not, Bool.not_eq_eq_eq_not, Bool.not_true, decide_eq_false_iff_not]
      rintro rfl; exact hd.1 hb
    · apply List.filter_congr
      intro b _
      by_cases h1 : b = a <;> by_cases h2 : b ∈ d <;> simp [h1, h2]

theorem mem_firsts (l : List Name) (k : Name) : k ∈ firsts l ↔ k ∈ l := by
  induction l with
  | nil => simp [firsts]
  | cons a l ih =>
    rw [firsts, List.mem_cons, List.mem_filter, ih, List.mem_cons]
    by_cases h : k = a <;> simp [h]

/-- every name is shown once -/
theorem firsts_nodup (l : List Name) : (firsts l).Nodup := by
  induction l with
  | nil => simp [firsts]
  | cons a l ih =>
    rw [firsts, List.nodup_cons]
    exact ⟨by simp [List.mem_filter], ih.filter _⟩

theorem at?_filter (d : List (Name × A)) (p : Name → Bool) (k : Name) :
    at? (d.filter fun q => p q.1) k = if p k then at? d k else none := by
  induction d with
  | nil => simp [at?_nil]
  | cons q d ih =>
    rw [List.filter_cons, at?_cons]
    by_cases hq : p q.1 = true
    · rw [if_pos hq, at?_cons, ih]
      by_cases hk : q.1 = k
      · subst hk; simp [hq]
      · simp [hk]
    · rw [if_neg hq, ih]
      by_cases hk : q.1 = k
      · subst hk; simp [hq]
      · simp [hk]

theorem having_filter (p : Name → Bool) (k : Name) (items : List (Name × List (Name × A))) (hp : p k = true) :
    having k (items.map fun q => (q.1, q.2.filter fun r => p r.1)) = having k items := by
  unfold having
  rw [List.filterMap_map]
  congr 1
  funext q
  simp [at?_filter, hp]

theorem headerRow_eq (n : Name) (d : List (Name × A)) (rest : List (Name × List (Name × A))) (hd : (names d).Nodup) :
    headerRow n d rest =
      (⟨d.map fun p => (p.1, 1 + (having p.1 rest).length), d.flatMap fun p => n :: names (having p.1 rest),
        d.flatMap fun p => p.2 :: (having p.1 rest).map Prod.snd⟩,
       rest.map fun q => (q.1, q.2.filter fun r => decide (r.1 ∉ names d))) := by
  induction d generalizing rest with
  | nil => simp [headerRow, names]
  | cons p d ih =>
    simp only [names, List.map_cons, List.nodup_cons] at hd
    have hh : ∀ q ∈ d, having q.1 (rest.map fun r => (r.1, erase r.2 p.1)) = having q.1 rest := by
      intro q hq
      have := having_filter (fun x => decide (x ≠ p.1)) q.1 rest (by
        simp only [decide_eq_true_eq]
        intro e
        exact hd.1 (e ▸ List.mem_map_of_mem (f := Prod.fst) hq))
      exact this
    obtain ⟨k, v⟩ := p
    rw [headerRow]
    rw [ih _ hd.2]
    have e1 : (rest.filterMap fun p => (at? p.2 k).map fun w => (p.1, w)) = having k rest := rfl
    rw [e1]
    simp only [Header.app, List.map_cons, List.flatMap_cons, List.singleton_append, List.map_map]
    refine Prod.ext ?_ ?_
    · simp only [Header.mk.injEq, List.cons_append]
      refine ⟨?_, ?_, ?_⟩
      · congr 1
        exact List.map_congr_left fun q hq => by rw [hh q hq]
      · congr 2
        exact List.flatMap_congr fun q hq => by rw [hh q hq]
      · congr 2
        exact List.flatMap_congr fun q hq => by rw [hh q hq]
    · simp only
      refine List.map_congr_left fun q _ => ?_
      simp only [Function.comp, erase, List.filter_filter]
      congr 1
      apply List.filter_congr
      intro r _
      by_cases h1 : r.1 = k <;> by_cases h2 : r.1 ∈ names d <;> simp [names, h1] <;> simp_all [names]

theorem headerLoop_shows (f : Nat) (items : List (Name × List (Name × A))) (hf : items.length ≤ f)
    (hn : ∀ p ∈ items, (names p.2).Nodup) : Shows items (headerLoop f items) := by
  induction f generalizing items with
  | zero =>
    have : items = [] := List.length_eq_zero_iff.1 (by omega)
    subst this
    exact ⟨rfl, rfl, rfl⟩
  | succ f ih =>
    cases items with
    | nil => exact ⟨rfl, rfl, rfl⟩
    | cons p rest =>
      obtain ⟨n, d⟩ := p
      have hd := hn (n, d) List.mem_cons_self
      simp only at hd
      have hrest := ih (rest.map fun q => (q.1, q.2.filter fun r => decide (r.1 ∉ names d))) (by simp at hf ⊢; omega)
        (fun q hq => by
          obtain ⟨r, hr, rfl⟩ := List.mem_map.1 hq
          have := hn r (List.mem_cons_of_mem _ hr)
          simp only [names] at this ⊢
          exact List.Nodup.sublist (List.Sublist.map Prod.fst List.filter_sublist) this)
      obtain ⟨r1, r2, r3⟩ := hrest
      have hall : allCols ((n, d) :: rest) = names d ++ (allCols (rest.map fun q => (q.1, q.2.filter fun r => decide (r.1 ∉ names d)))) := by
        unfold allCols
        rw [List.flatMap_cons, firsts_append _ _ hd, ← firsts_filter]
        congr 2
        rw [List.flatMap_map, List.filter_flatMap]
        refine List.flatMap_congr fun q _ => ?_
        simp only [names, List.filter_map]
        rfl
      have hnot : ∀ k ∈ allCols (rest.map fun q => (q.1, q.2.filter fun r => decide (r.1 ∉ names d))),
          having k ((n, d) :: rest) = having k (rest.map fun q => (q.1, q.2.filter fun r => decide (r.1 ∉ names d))) := by
        intro k hk
        have hkd : k ∉ names d := by
          unfold allCols at hk
          rw [mem_firsts, List.mem_flatMap] at hk
          obtain ⟨q, hq, hkq⟩ := hk
          obtain ⟨r, _, rfl⟩ := List.mem_map.1 hq
          simp only [names, List.mem_map, List.mem_filter, decide_eq_true_eq] at hkq
          obtain ⟨x, ⟨_, hx⟩, rfl⟩ := hkq
          simpa [names] using hx
        rw [having_filter (fun x => decide (x ∉ names d)) k rest (by simp [hkd])]
        simp [having, (at?_eq_none d k).2 hkd]
      have hin : ∀ p ∈ d, having p.1 ((n, d) :: rest) = (n, p.2) :: having p.1 rest := by
        intro p hp
        simp [having, at?_of_mem (k := p.1) (v := p.2) hd hp]
      have hrow := headerRow_eq n d rest hd
      unfold headerLoop
      simp only [hrow, Header.app]
      refine ⟨?_, ?_, ?_⟩
      · simp only
        rw [hall, List.map_append, r1]
        congr 1
        · simp only [names, List.map_map]
          refine List.map_congr_left fun p hp => ?_
          simp [hin p hp]; omega
        · exact List.map_congr_left fun k hk => by rw [hnot k hk]
      · simp only
        rw [hall, List.flatMap_append, r2]
        congr 1
        · simp only [names, List.flatMap_map]
          refine List.flatMap_congr fun p hp => ?_
          simp [hin p hp]
        · exact List.flatMap_congr fun k hk => by rw [hnot k hk]
      · simp only
        rw [hall, List.flatMap_append, r3]
        congr 1
        · simp only [names, List.flatMap_map]
          refine List.flatMap_congr fun p hp => ?_
          simp [hin p hp]
        · exact List.flatMap_congr fun k hk => by rw [hnot k hk]

theorem dropKeys_eq (keys : List Name) (d : List (Name × A)) (hk : keys.Nodup) (hin : ∀ k ∈ keys, k ∈ names d) :
    dropKeys keys d = some (d.filter fun p => decide (p.1 ∉ keys)) := by
  unfold dropKeys
  induction keys generalizing d with
  | nil => simp
  | cons k keys ih =>
    simp only [List.nodup_cons] at hk
    rw [List.foldl_cons]
    simp only [Option.bind_some, if_pos (hin k List.mem_cons_self)]
    rw [ih (erase d k) hk.2]
    · congr 1
      unfold erase
      rw [List.filter_filter]
      apply List.filter_congr
      intro p _
      by_cases h1 : p.1 = k <;> by_cases h2 : p.1 ∈ keys <;> simp [h1, h2]
    · intro k' hk'
      have := hin k' (List.mem_cons_of_mem _ hk')
      simp only [names, erase, List.mem_map, List.mem_filter] at this ⊢
      obtain ⟨p, hp, rfl⟩ := this
      exact ⟨p, ⟨hp, by simp only [decide_eq_true_eq]; rintro rfl; exact hk.1 hk'⟩, rfl⟩

/-- a dictionary without the keys -/
def without (keys : List Name) (d : List (Name × A)) : List (Name × A) := d.filter fun p => decide (p.1 ∉ keys)

/-- **C150** the display of a Multiset of several Datasets: every column of every Dataset that is not a key is shown once, below its
name and the name of its Dataset, columns of the same name next to each other -/
theorem headers_partial (keys : List Name) (items : List (Name × List (Name × A))) (hk : keys.Nodup)
    (hn : ∀ p ∈ items, (names p.2).Nodup) (hin : ∀ p ∈ items, ∀ k ∈ keys, k ∈ names p.2) :
    ∃ h, headers keys (names items) (items.map Prod.snd) = some h ∧
      Shows (items.map fun p => (p.1, without keys p.2)) h := by
  have hm : (items.map Prod.snd).mapM (dropKeys keys) = some (items.map fun p => without keys p.2) := by
    induction items with
    | nil => rfl
    | cons p items ih =>
      rw [List.map_cons, List.mapM_cons, dropKeys_eq keys p.2 hk (hin p List.mem_cons_self),
        ih (fun q hq => hn q (List.mem_cons_of_mem _ hq)) (fun q hq => hin q (List.mem_cons_of_mem _ hq))]
      rfl
  unfold headers
  rw [hm]
  simp only [Option.bind_some]
  rw [if_neg (by simp [names])]
  refine ⟨_, rfl, ?_⟩
  have hz : (names items).zip (items.map fun p => without keys p.2) = items.map fun p => (p.1, without keys p.2) := by
    unfold names
    induction items with
    | nil => rfl
    | cons p items ih => simp only [List.map_cons, List.zip_cons_cons]; rw [ih (fun q hq => hn q (List.mem_cons_of_mem _ hq))
        (fun q hq => hin q (List.mem_cons_of_mem _ hq)) (by
          have : ∀ l : List (Name × List (Name × A)), (∀ q ∈ l, ∀ k ∈ keys, k ∈ MSet.names q.2) →
              (l.map Prod.snd).mapM (dropKeys keys) = some (l.map fun p => without keys p.2) := by
            intro l hl
            induction l with
            | nil => rfl
            | cons r l ihl =>
              rw [List.map_cons, List.mapM_cons, dropKeys_eq keys r.2 hk (hl r List.mem_cons_self),
                ihl (fun q hq => hl q (List.mem_cons_of_mem _ hq))]
              rfl
          exact this items (fun q hq => hin q (List.mem_cons_of_mem _ hq)))]
  rw [hz]
  refine headerLoop_shows _ _ (by simp [names]) fun p hp => ?_
  obtain ⟨q, hq, rfl⟩ := List.mem_map.1 hp
  have := hn q hq
  simp only [names, without] at this ⊢
  exact List.Nodup.sublist (List.Sublist.map Prod.fst List.filter_sublist) this

/-- **C150** the same for one Dataset -/
theorem headersOne_shows (keys : List Name) (n : Name) (d : List (Name × A)) (hd : (names d).Nodup) :
    Shows [(n, without keys d)] (headersOne keys n d) := by
  have hnd : (names (without keys d)).Nodup := by
    unfold names without at *
    exact List.Nodup.sublist (List.Sublist.map Prod.fst List.filter_sublist) hd
  have hall : allCols [(n, without keys d)] = names (without keys d) := by
    unfold allCols
    simp only [List.flatMap_cons, List.flatMap_nil]
    rw [firsts_append _ _ hnd]; simp [firsts]
  have hin : ∀ p ∈ without keys d, having p.1 [(n, without keys d)] = [(n, p.2)] := by
    intro p hp
    simp [having, at?_of_mem (k := p.1) (v := p.2) hnd hp]
  unfold headersOne
  refine ⟨?_, ?_, ?_⟩
  · rw [hall]
    simp only [names, List.map_map]
    exact List.map_congr_left fun p hp => by simp [hin p hp]
  · rw [hall]
    simp only [names, List.flatMap_map]
    rw [← List.flatMap_singleton' (List.map _ _), List.flatMap_map]
    exact List.flatMap_congr fun p hp => by simp [hin p hp]
  · rw [hall]
    simp only [names, List.flatMap_map]
    rw [← List.flatMap_singleton' (List.map Prod.snd _), List.flatMap_map]
    exact List.flatMap_congr fun p hp => by simp [hin p hp]

end Verif.MSet
