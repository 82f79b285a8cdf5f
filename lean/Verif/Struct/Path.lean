import Verif.Struct.Inv
import Mathlib.Data.List.Perm.Subperm

/-! # Following a rename dictionary: chains and cycles -/
namespace Verif.Struct
open Verif.Items Dict

/-- the new names of a rename dictionary -/
def vals (d : Dict Name Name) : List Name := d.map Prod.snd

/-- the entries of `d` met when it is followed from a name to another -/
inductive Path (d : Dict Name Name) : Name → Dict Name Name → Name → Prop
  | nil (x : Name) : Path d x [] x
  | cons {x t y : Name} {l : Dict Name Name} : (x, t) ∈ d → Path d t l y → Path d x ((x, t) :: l) y

variable {d : Dict Name Name} {P : List Name} {x y z : Name} {l : Dict Name Name}

theorem Path.sub (h : Path d x l y) : ∀ e ∈ l, e ∈ d := by
  induction h with
  | nil => simp
  | cons h _ ih =>
    intro e he
    rcases List.mem_cons.mp he with rfl | he
    · exact h
    · exact ih e he

theorem Path.vals_eq (h : Path d x l y) : x :: vals l = keys l ++ [y] := by
  induction h with
  | nil x => rfl
  | cons _ _ ih =>
    simp only [vals, keys, List.map_cons, List.cons_append] at ih ⊢
    rw [ih]

/-- the names of a path, in order: its keys, with each target the next key -/
theorem Path.target (h : Path d x l y) : ∀ l1 o t l2, l = l1 ++ (o, t) :: l2 → t = y ∧ l2 = [] ∨ ∃ l3 t', l2 = (t, t') :: l3 := by
  induction h with
  | nil => intro l1 o t l2 h; simp at h
  | @cons x t' y l h1 h2 ih =>
    intro l1 o t l2 hl
    cases l1 with
    | nil =>
      simp only [List.nil_append, List.cons.injEq, Prod.mk.injEq] at hl
      obtain ⟨⟨rfl, rfl⟩, rfl⟩ := hl
      cases h2 with
      | nil => exact .inl ⟨rfl, rfl⟩
      | cons h h' => exact .inr ⟨_, _, rfl⟩
    | cons e l1 =>
      simp only [List.cons_append, List.cons.injEq] at hl
      exact ih l1 o t l2 hl.2

theorem get_functional (hd : (keys d).Nodup) {a b c : Name} (h1 : (a, b) ∈ d) (h2 : (a, c) ∈ d) : b = c := by
  have e1 := get_of_mem hd h1
  have e2 := get_of_mem hd h2
  rw [e1] at e2
  exact Option.some.inj e2

theorem vals_inj (hv : (vals d).Nodup) {a b c : Name} (h1 : (a, c) ∈ d) (h2 : (b, c) ∈ d) : a = b := by
  have := List.inj_on_of_nodup_map hv h1 h2 rfl
  exact (Prod.mk.inj this).1

/-- a closed cycle of the dictionary -/
structure Cycle (d : Dict Name Name) (P : List Name) (c : Dict Name Name) : Prop where
  sub : ∀ e ∈ c, e ∈ d
  nodup : (keys c).Nodup
  cols : ∀ k ∈ keys c, k ∈ P
  closed : (vals c).Perm (keys c)

theorem Cycle.fwd (hc : Cycle d P l) (hd : (keys d).Nodup) {k t : Name} (hk : k ∈ keys l) (h : (k, t) ∈ d) : t ∈ keys l := by
  obtain ⟨e, he, rfl⟩ := List.mem_map.mp hk
  have : e.2 = t := get_functional hd (hc.sub e he) h
  rw [← this]
  exact hc.closed.mem_iff.mp (List.mem_map_of_mem he)

theorem Cycle.bwd (hc : Cycle d P l) (hv : (vals d).Nodup) {k t : Name} (hk : t ∈ keys l) (h : (k, t) ∈ d) : k ∈ keys l := by
  obtain ⟨e, he, rfl⟩ := List.mem_map.mp (hc.closed.mem_iff.mpr hk)
  have : e.1 = k := vals_inj hv (hc.sub e he) h
  rw [← this]
  exact List.mem_map_of_mem he

theorem Path.avoid {c : Dict Name Name} (h : Path d x l y) (hc : Cycle d P c) (hv : (vals d).Nodup) (hx : x ∉ keys c) :
    ∀ k ∈ keys l, k ∉ keys c := by
  induction h with
  | nil => intro k hk; simp [keys] at hk
  | @cons x t y l h1 h2 ih =>
    intro k hk
    have hk' : k = x ∨ k ∈ keys l := by simpa [keys] using hk
    rcases hk' with rfl | hk'
    · exact hx
    · exact ih (fun ht => hx (hc.bwd hv ht h1)) k hk'

/-- a path that comes back to one of its own keys is a closed cycle -/
theorem Path.cycle (h : Path d x l y) (hv : (vals d).Nodup) (hn : (keys l).Nodup) (hP : ∀ k ∈ keys l, k ∈ P) (hy : y ∈ keys l) :
    Cycle d P l := by
  refine ⟨h.sub, hn, hP, ?_⟩
  have hl : (vals l).Nodup := by
    refine List.Nodup.map_on (fun a ha b hb hab => ?_) hn.of_map
    exact List.inj_on_of_nodup_map hv (h.sub a ha) (h.sub b hb) hab
  have he := h.vals_eq
  cases hk : keys l with
  | nil => rw [hk] at hy; simp at hy
  | cons k ks =>
    rw [hk, List.cons_append, List.cons.injEq] at he
    obtain ⟨rfl, he⟩ := he
    rw [he, List.nodup_append] at hl
    have : y ∉ ks := fun hm => hl.2.2 y hm y (by simp) rfl
    have hyx : y = x := by
      rw [hk] at hy
      rcases List.mem_cons.mp hy with h | h
      · exact h
      · exact absurd h this
    rw [he, hyx]
    exact List.perm_append_singleton _ _

/-- a path of columns that ends outside the columns -/
structure Chain (d : Dict Name Name) (P : List Name) (x : Name) (l : Dict Name Name) (z : Name) : Prop where
  path : Path d x l z
  cols : ∀ k ∈ keys l, k ∈ P
  out : z ∉ P
  nodup : (keys l).Nodup

theorem Path.suffix (h : Path d x l y) {k : Name} (hk : k ∈ keys l) : ∃ pre suf, l = pre ++ suf ∧ Path d k suf y := by
  induction h with
  | nil => simp [keys] at hk
  | @cons x t y l h1 h2 ih =>
    have hk' : k = x ∨ k ∈ keys l := by simpa [keys] using hk
    rcases hk' with rfl | hk'
    · exact ⟨[], (k, t) :: l, rfl, .cons h1 h2⟩
    · obtain ⟨pre, suf, e, hp⟩ := ih hk'
      exact ⟨(x, t) :: pre, suf, by rw [e]; rfl, hp⟩

/-- from the same key, two chains end at the same name -/
theorem Path.end_unique (hd : (keys d).Nodup) {l' : Dict Name Name} (h : Path d x l y) (h' : Path d x l' z)
    (hP : ∀ k ∈ keys l, k ∈ P) (hP' : ∀ k ∈ keys l', k ∈ P) (hy : y ∉ P) (hz : z ∉ P) : y = z := by
  induction h generalizing l' with
  | nil x =>
    cases h' with
    | nil => rfl
    | cons a b => exact absurd (hP' x (by simp [keys])) hy
  | @cons x t y l h1 h2 ih =>
    cases h' with
    | nil => exact absurd (hP z (by simp [keys])) hz
    | @cons _ t' _ l'' a b =>
      have : t = t' := get_functional hd h1 a
      subst this
      exact ih b (fun k hk => hP k (by simp [keys] at hk ⊢; exact .inr hk)) (fun k hk => hP' k (by simp [keys] at hk ⊢; exact .inr hk)) hy

theorem Path.snoc_inv {e : Name × Name} (h : Path d x (l ++ [e]) y) : e ∈ d ∧ e.2 = y ∧ Path d x l e.1 := by
  induction l generalizing x with
  | nil =>
    cases h with
    | cons a b => cases b; exact ⟨a, rfl, .nil _⟩
  | cons f l ih =>
    cases h with
    | cons a b =>
      obtain ⟨h1, h2, h3⟩ := ih b
      exact ⟨h1, h2, .cons a h3⟩

/-- of two paths to the same name the shorter is a final piece of the longer -/
theorem Path.final (hv : (vals d).Nodup) : ∀ (l l' : Dict Name Name) (x x' y : Name), Path d x l y → Path d x' l' y →
    l.length ≤ l'.length → ∀ e ∈ l, e ∈ l' := by
  intro l
  induction l using List.reverseRecOn with
  | nil => intro _ _ _ _ _ _ _ e he; simp at he
  | append_singleton l a ih =>
    intro l' x x' y h h' hlen e he
    rcases List.eq_nil_or_concat l' with rfl | ⟨l'', a', rfl⟩
    · simp at hlen
    rw [List.concat_eq_append] at *
    obtain ⟨h1, h2, h3⟩ := h.snoc_inv
    obtain ⟨g1, g2, g3⟩ := h'.snoc_inv
    have : a = a' := by
      refine List.inj_on_of_nodup_map hv h1 g1 ?_
      rw [h2, g2]
    subst this
    rcases List.mem_append.mp he with he | he
    · exact List.mem_append_left _ (ih l'' x x' a.1 h3 g3 (by simpa using hlen) e he)
    · exact List.mem_append_right _ he

/-- a column of a cycle is on no chain -/
theorem Chain.avoid {c : Dict Name Name} (h : Chain d P x l z) (hd : (keys d).Nodup) (hc : Cycle d P c) :
    ∀ k ∈ keys l, k ∉ keys c := by
  intro k hk hkc
  obtain ⟨pre, suf, rfl, hp⟩ := h.path.suffix hk
  have : ∀ (k : Name) (suf : Dict Name Name) (y : Name), Path d k suf y → k ∈ keys c → y ∈ keys c := by
    intro k suf y hp
    induction hp with
    | nil => exact id
    | cons a b ih => exact fun hk => ih (hc.fwd hd hk a)
  exact h.out (hc.cols _ (this k suf z hp hkc))

/-- chains with a common column: the shorter is contained in the longer -/
theorem Chain.nested {l' : Dict Name Name} {x' z' : Name} (h : Chain d P x l z) (h' : Chain d P x' l' z') (hd : (keys d).Nodup)
    (hv : (vals d).Nodup) (hlen : l.length ≤ l'.length) {k : Name} (hk : k ∈ keys l) (hk' : k ∈ keys l') : ∀ e ∈ l, e ∈ l' := by
  obtain ⟨pre, suf, e1, hp⟩ := h.path.suffix hk
  obtain ⟨pre', suf', e2, hp'⟩ := h'.path.suffix hk'
  have hc1 : ∀ k ∈ keys suf, k ∈ P := fun k hk => h.cols k (by rw [e1]; simp [keys] at hk ⊢; exact .inr hk)
  have hc2 : ∀ k ∈ keys suf', k ∈ P := fun k hk => h'.cols k (by rw [e2]; simp [keys] at hk ⊢; exact .inr hk)
  have : z = z' := hp.end_unique hd hp' hc1 hc2 h.out h'.out
  subst this
  exact Path.final hv l l' x x' z h.path h'.path hlen

/-! ## `_get_seq` -/

theorem keys_append (a b : Dict Name Name) : keys (a ++ b) = keys a ++ keys b := by simp [keys]

theorem getSeq_spec (fuel : Nat) : ∀ (seqd : Dict Name Name) (frm : Name) (r : Dict Name Name) (b : Bool),
    getSeq d P fuel seqd frm = .ok (r, b) → (keys seqd).Nodup → frm ∈ P →
    ∃ l y, r = seqd ++ l ∧ Path d frm l y ∧ (keys r).Nodup ∧ (∀ k ∈ keys l, k ∈ P) ∧
      (b = true → y ∈ keys r) ∧ (b = false → y ∉ P ∧ l ≠ []) := by
  induction fuel with
  | zero => intro seqd frm r b h; simp [getSeq] at h
  | succ fuel ih =>
    intro seqd frm r b h hn hP
    unfold getSeq at h
    by_cases hs : frm ∈ keys seqd
    · rw [if_pos ((has_iff _ _).mpr hs)] at h
      have := Except.ok.inj h
      simp only [Prod.mk.injEq] at this
      obtain ⟨rfl, rfl⟩ := this
      exact ⟨[], frm, by simp, .nil _, hn, by simp [keys], fun _ => hs, by simp⟩
    rw [if_neg (fun e => hs ((has_iff _ _).mp e))] at h
    cases hg : Dict.get d frm with
    | none => simp [hg] at h
    | some t =>
      simp only [hg] at h
      have hm := mem_of_get hg
      have hn' : (keys (seqd ++ [(frm, t)])).Nodup := by
        rw [keys_append, List.nodup_append]
        exact ⟨hn, by simp [keys], by
          intro a ha b hb e
          have : b = frm := by simpa [keys] using hb
          exact hs (this ▸ e ▸ ha)⟩
      by_cases ht : t ∈ P
      · rw [if_neg (not_not.mpr ht)] at h
        obtain ⟨l, y, h1, h2, h3, h4, h5, h6⟩ := ih _ _ _ _ h hn' ht
        refine ⟨(frm, t) :: l, y, by rw [h1, List.append_assoc]; rfl, .cons hm h2, h3, ?_, h5, fun hb => ⟨(h6 hb).1, by simp⟩⟩
        intro k hk
        have hk' : k = frm ∨ k ∈ keys l := by simpa [keys] using hk
        rcases hk' with rfl | hk'
        · exact hP
        · exact h4 k hk'
      · rw [if_pos ht] at h
        have := Except.ok.inj h
        simp only [Prod.mk.injEq] at this
        obtain ⟨rfl, rfl⟩ := this
        refine ⟨[(frm, t)], t, rfl, .cons hm (.nil _), hn', ?_, by simp, fun _ => ⟨ht, by simp⟩⟩
        intro k hk
        have : k = frm := by simpa [keys] using hk
        exact this ▸ hP

theorem getSeq_true (hv : (vals d).Nodup) {fuel : Nat} {frm : Name} {r : Dict Name Name} (hP : frm ∈ P)
    (h : getSeq d P fuel [] frm = .ok (r, true)) : Cycle d P r ∧ frm ∈ keys r ∧ ∃ y, Path d frm r y := by
  obtain ⟨l, y, h1, h2, h3, h4, h5, _⟩ := getSeq_spec fuel [] frm r true h (by simp [keys]) hP
  rw [List.nil_append] at h1
  subst h1
  refine ⟨h2.cycle hv h3 h4 (h5 rfl), ?_, y, h2⟩
  cases h2 with
  | nil => exact h5 rfl
  | cons => simp [keys]

theorem getSeq_false {fuel : Nat} {frm : Name} {r : Dict Name Name} (hP : frm ∈ P)
    (h : getSeq d P fuel [] frm = .ok (r, false)) : frm ∈ keys r ∧ ∃ z, Chain d P frm r z := by
  obtain ⟨l, y, h1, h2, h3, h4, _, h5⟩ := getSeq_spec fuel [] frm r false h (by simp [keys]) hP
  rw [List.nil_append] at h1
  subst h1
  refine ⟨?_, y, h2, h4, (h5 rfl).1, h3⟩
  cases h2 with
  | nil => exact absurd rfl (h5 rfl).2
  | cons => simp [keys]

/-- with every existing target itself renamed, the walk never fails -/
theorem getSeq_total (hd : (keys d).Nodup) (ht : ∀ e ∈ d, e.2 ∈ P → e.2 ∈ keys d) (fuel : Nat) : ∀ (seqd : Dict Name Name) (frm : Name),
    (keys seqd).Nodup → (∀ e ∈ seqd, e ∈ d) → frm ∈ keys d → d.length < fuel + seqd.length →
    ∃ r, getSeq d P fuel seqd frm = .ok r := by
  induction fuel with
  | zero =>
    intro seqd frm hn hs _ hl
    have : (keys seqd).length ≤ (keys d).length :=
      (List.subperm_of_subset hn (fun k hk => by
        obtain ⟨e, he, rfl⟩ := List.mem_map.mp hk
        exact List.mem_map_of_mem (hs e he))).length_le
    simp [keys] at this
    omega
  | succ fuel ih =>
    intro seqd frm hn hs hf hl
    unfold getSeq
    by_cases hsf : frm ∈ keys seqd
    · rw [if_pos ((has_iff _ _).mpr hsf)]; exact ⟨_, rfl⟩
    rw [if_neg (fun e => hsf ((has_iff _ _).mp e))]
    cases hg : Dict.get d frm with
    | none => exact absurd hf ((get_eq_none_iff d frm).mp hg)
    | some t =>
      have hm := mem_of_get hg
      dsimp only
      by_cases htP : t ∈ P
      · rw [if_neg (not_not.mpr htP)]
        refine ih _ _ ?_ ?_ (ht _ hm htP) (by simp; omega)
        · rw [keys_append, List.nodup_append]
          exact ⟨hn, by simp [keys], by
            intro a ha b hb e
            have : b = frm := by simpa [keys] using hb
            exact hsf (this ▸ e ▸ ha)⟩
        · intro e he
          rcases List.mem_append.mp he with he | he
          · exact hs e he
          · rw [List.mem_singleton.mp he]; exact hm
      · rw [if_pos htP]; exact ⟨_, rfl⟩

end Verif.Struct
