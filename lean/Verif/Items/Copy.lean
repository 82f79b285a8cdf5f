import Verif.Items.Props

/-!
# C15: copies

Two containers over one heap of attribute objects.  If no attribute object is shared,
any interleaving of operations on the two leaves each as if the other were not there.
Deep dataset copies meet this; shallow copies share attribute objects, and label or
attribute changes show up on both sides.
-/
namespace Verif.Items
open Dict

section
variable {V : Type} {h h' : Heap} {c c' : Container V}

/-- some column of the container holds that attribute object -/
def Refs (c : Container V) (p : Nat) : Prop := ∃ e ∈ c, e.2.attr = some p

/-- no attribute object in common -/
def Apart (c1 c2 : Container V) : Prop := ∀ p, Refs c1 p → ¬ Refs c2 p

/-- the step touched only its own or new attribute objects -/
structure Frame (h : Heap) (c : Container V) (h' : Heap) (c' : Container V) : Prop where
  grow : h.length ≤ h'.length
  same : ∀ p, p < h.length → ¬ Refs c p → h'[p]? = h[p]?
  refs : ∀ p, Refs c' p → Refs c p ∨ h.length ≤ p

theorem Frame.refl (h : Heap) (c : Container V) : Frame h c h c :=
  ⟨Nat.le_refl _, fun _ _ _ => rfl, fun _ hp => .inl hp⟩

theorem Frame.trans {h'' : Heap} {c'' : Container V} (f : Frame h c h' c') (g : Frame h' c' h'' c'') :
    Frame h c h'' c'' := by
  refine ⟨Nat.le_trans f.grow g.grow, fun p hp hr => ?_, fun p hp => ?_⟩
  · rw [g.same p (Nat.lt_of_lt_of_le hp f.grow), f.same p hp hr]
    intro hc
    rcases f.refs p hc with h1 | h1
    · exact hr h1
    · omega
  · rcases g.refs p hp with h1 | h1
    · exact f.refs p h1
    · exact .inr (Nat.le_trans f.grow h1)

theorem Frame.sub (hs : ∀ e ∈ c', e.2.attr = none ∨ ∃ e' ∈ c, e'.2.attr = e.2.attr) : Frame h c h c' :=
  ⟨Nat.le_refl _, fun _ _ _ => rfl, fun p ⟨e, he, hp⟩ => by
    rcases hs e he with h0 | ⟨e', h1, h2⟩
    · rw [h0] at hp; simp at hp
    · exact .inl ⟨e', h1, h2.trans hp⟩⟩

theorem mem_set {c : Container V} {k : Name} {it : Item V} {e : Name × Item V} (he : e ∈ c.set k it) :
    e ∈ c ∨ e = (k, it) := by
  unfold Dict.set at he
  split at he
  · obtain ⟨e', h1, h2⟩ := List.mem_map.mp he
    split at h2
    · exact .inr h2.symm
    · exact .inl (h2 ▸ h1)
  · rcases List.mem_append.mp he with h1 | h1
    · exact .inl h1
    · exact .inr (by simpa using h1)

theorem rebuild_sub (f : Name → Name) : ∀ (c acc : Container V) (e : Name × Item V),
    e ∈ c.foldl (fun acc e => acc.set (f e.1) e.2) acc → e ∈ acc ∨ ∃ e' ∈ c, e'.2 = e.2 := by
  intro c
  induction c with
  | nil => intro acc e he; exact .inl he
  | cons x c ih =>
    intro acc e he
    rcases ih _ e he with h1 | ⟨e', h1, h2⟩
    · rcases mem_set h1 with h3 | h3
      · exact .inl h3
      · exact .inr ⟨x, by simp, by rw [h3]⟩
    · exact .inr ⟨e', by simp [h1], h2⟩

theorem frame_rebuild (f : Name → Name) : Frame h c h (rebuild f c) := by
  apply Frame.sub
  intro e he
  rcases rebuild_sub f c [] e he with h1 | ⟨e', h1, h2⟩
  · simp at h1
  · exact .inr ⟨e', h1, by rw [h2]⟩

theorem frame_perm (hp : c'.Perm c) : Frame h c h c' :=
  Frame.sub fun e he => .inr ⟨e, hp.mem_iff.mp he, rfl⟩

theorem frame_setAttribute {k : Name} {it : Item V} (hk : c.get k = some it) (a : Name) (v : Nat) :
    Frame h c (setAttribute (h, c) k it a v).1 (setAttribute (h, c) k it a v).2 := by
  unfold setAttribute
  cases hat : it.attr with
  | none =>
    refine ⟨by simp, fun p hp _ => ?_, fun p ⟨e, he, hp⟩ => ?_⟩
    · simp only; rw [List.getElem?_append_left hp]
    · rcases mem_set he with h1 | h1
      · exact .inl ⟨e, h1, hp⟩
      · rw [h1] at hp
        right
        simp at hp
        omega
  | some q =>
    have hmem := mem_of_get hk
    refine ⟨by simp, fun p hp hr => ?_, fun p ⟨e, he, hp⟩ => ?_⟩
    · simp only
      rw [modify_ne]
      rintro rfl
      exact hr ⟨(k, it), hmem, hat⟩
    · rcases mem_set he with h1 | h1
      · exact .inl ⟨e, h1, hp⟩
      · rw [h1] at hp
        exact .inl ⟨(k, it), hmem, hp⟩

theorem taggedRemove_other (t : Name) (p : Nat) : ∀ (c : Container V) (h : Heap), ¬ Refs c p →
    (taggedRemove h c t)[p]? = h[p]? := by
  intro c
  induction c with
  | nil => intro h _; rfl
  | cons e c ih =>
    intro h hr
    have hr' : ¬ Refs c p := fun ⟨e', h1, h2⟩ => hr ⟨e', by simp [h1], h2⟩
    show (taggedRemove (removeBody t h e) c t)[p]? = _
    rw [ih _ hr']
    unfold removeBody
    cases he : e.2.attr with
    | none => rfl
    | some q =>
      simp only
      rw [modify_ne]
      rintro rfl
      exact hr ⟨e, by simp, he⟩

theorem frame_taggedRemove (t : Name) : Frame h c (taggedRemove h c t) c :=
  ⟨by rw [taggedRemove_length], fun p _ hr => taggedRemove_other t p c h hr, fun _ hp => .inl hp⟩

theorem frame_taggedSetNames (l : List Name) (tag : Name) :
    Frame h c (taggedSetNames (h, c) l tag).1 (taggedSetNames (h, c) l tag).2 := by
  unfold taggedSetNames
  have key : ∀ (l : List (Name × Nat)) (s : Heap × Container V),
      Frame s.1 s.2 (l.foldl (tagBody tag) s).1 (l.foldl (tagBody tag) s).2 := by
    intro l
    induction l with
    | nil => intro s; exact Frame.refl _ _
    | cons x l ih =>
      intro s
      refine Frame.trans ?_ (ih (tagBody tag s x))
      unfold tagBody
      cases hg : s.2.get x.1 with
      | none => exact Frame.refl _ _
      | some it => exact frame_setAttribute hg tag x.2
  exact (frame_taggedRemove tag).trans (key l.zipIdx (taggedRemove h c tag, c))

theorem frame_of_result {op : Op V} (r : Except String (Container V)) (hr : step (h, c) op = r.map (h, ·))
    (hf : ∀ c', r = .ok c' → Frame h c h c') : Frame h c (exec (h, c) op).1 (exec (h, c) op).2 := by
  unfold exec
  rw [hr]
  cases r with
  | error e => exact Frame.refl _ _
  | ok c' => exact hf c' rfl

theorem frame_exec (ok : Ok h c) (op : Op V) : Frame h c (exec (h, c) op).1 (exec (h, c) op).2 := by
  cases op with
  | setValue k v =>
    show Frame h c h (itemSetValue c k v)
    apply Frame.sub
    intro e he
    unfold itemSetValue at he
    cases hg : c.get k with
    | some it =>
      rw [hg] at he
      rcases mem_set he with h1 | h1
      · exact .inr ⟨e, h1, rfl⟩
      · exact .inr ⟨(k, it), mem_of_get hg, by rw [h1]⟩
    | none =>
      rw [hg] at he
      rcases mem_set he with h1 | h1
      · exact .inr ⟨e, h1, rfl⟩
      · exact .inl (by rw [h1])
  | delete k =>
    refine frame_of_result (itemDelete c k) rfl fun c' hc' => ?_
    unfold itemDelete at hc'
    split at hc'
    · rw [← Except.ok.inj hc']
      exact Frame.sub fun e he => .inr ⟨e, (List.mem_filter.mp he).1, rfl⟩
    · simp at hc'
  | rename o n =>
    refine frame_of_result (itemRename c o n) rfl fun c' hc' => ?_
    unfold itemRename at hc'
    split at hc'
    · rw [← Except.ok.inj hc']; exact Frame.refl _ _
    split at hc'
    · simp at hc'
    split at hc'
    · simp at hc'
    · rw [← Except.ok.inj hc']; exact frame_rebuild _
  | moveFront l =>
    refine frame_of_result (itemMoveToFront c l) rfl fun c' hc' => ?_
    by_cases hl : l.length ≤ c.length
    · rw [moveToFront_eq ok.nodup l hl] at hc'
      rw [← Except.ok.inj hc']
      exact frame_perm (moveToFront_perm ok.nodup l)
    · unfold itemMoveToFront getMoveCols at hc'
      rw [if_pos (by omega)] at hc'
      simp at hc'
  | moveBack l =>
    refine frame_of_result (itemMoveToBack c l) rfl fun c' hc' => ?_
    by_cases hl : l.length ≤ c.length
    · rw [moveToBack_eq ok.nodup l hl] at hc'
      rw [← Except.ok.inj hc']
      exact frame_perm (moveToBack_perm ok.nodup l)
    · unfold itemMoveToBack getMoveCols at hc'
      rw [if_pos (by omega)] at hc'
      simp at hc'
  | addPrefix p => exact frame_rebuild (fun k => p ++ k)
  | addSuffix p => exact frame_rebuild (fun k => k ++ p)
  | strReplace r =>
    refine frame_of_result (itemStrReplace c r) rfl fun c' hc' => ?_
    unfold itemStrReplace at hc'
    split at hc'
    · simp at hc'
    split at hc'
    · rw [← Except.ok.inj hc']; exact frame_rebuild _
    · rw [← Except.ok.inj hc']; exact Frame.refl _ _
  | setAttr k x v =>
    have hs : step (h, c) (.setAttr k x v) = itemSetAttribute (h, c) k x v := rfl
    unfold exec
    rw [hs]
    unfold itemSetAttribute
    cases hg : c.get k with
    | none => simp only [hg]; exact Frame.refl _ _
    | some it => simp only [hg]; exact frame_setAttribute hg x v
  | setTagged tag l => exact frame_taggedSetNames l tag
  | removeTagged tag => exact frame_taggedRemove tag

/-! ## Two containers -/

theorem Apart.symm {c1 c2 : Container V} (ap : Apart c1 c2) : Apart c2 c1 := fun p h2 h1 => ap p h1 h2

/-- what one side does is not seen by the other -/
theorem other_side {c2 : Container V} (f : Frame h c h' c') (ok2 : Ok h c2) (ap : Apart c c2) :
    Ok h' c2 ∧ Apart c' c2 ∧ observe h' c2 = observe h c2 := by
  have hv : ∀ e ∈ c2, ∀ p, e.2.attr = some p → p < h.length := fun e he p hp =>
    ok2.valid e.1 e.2 p (get_of_mem ok2.nodup he) hp
  have ha : ∀ k a, att h' c2 k a = att h c2 k a := by
    intro k a
    unfold att itemGetAttribute attrOf
    cases hg : c2.get k with
    | none => rfl
    | some it =>
      have hm := mem_of_get hg
      cases hat : it.attr with
      | none => simp [hat]
      | some p =>
        simp only [Option.bind_some, hat]
        rw [f.same p (hv _ hm p hat) (fun hr => ap p hr ⟨_, hm, hat⟩)]
  have hok : Ok h' c2 := by
    refine ⟨ok2.nodup, fun k it p hk hp => Nat.lt_of_lt_of_le (ok2.valid k it p hk hp) f.grow, ok2.noshare, ?_⟩
    intro t ht j k v
    rw [ha, ha]
    exact ok2.inj t ht j k v
  refine ⟨hok, ?_, abs_ext (observe_ext rfl fun k a _ _ => ha k a) ?_⟩
  · intro p hp ⟨e, he, hpe⟩
    rcases f.refs p hp with h1 | h1
    · exact ap p h1 ⟨e, he, hpe⟩
    · have := hv e he p hpe
      omega
  · intro t
    rw [observe_tagged, observe_tagged]
    by_cases ht : isTag t = true
    · rw [if_pos ht, if_pos ht]
      exact tagged_eq hok ht ((tagRep_get ok2 t ht).congr fun k => ha k t)
    · simp [ht]

/-- two containers over one heap -/
abbrev Pair (V : Type) := Heap × Container V × Container V

/-- an operation on the first (`true`) or the second container -/
def exec2 (s : Pair V) (o : Bool × Op V) : Pair V :=
  if o.1 then ((exec (s.1, s.2.1) o.2).1, (exec (s.1, s.2.1) o.2).2, s.2.2)
  else ((exec (s.1, s.2.2) o.2).1, s.2.1, (exec (s.1, s.2.2) o.2).2)

/-- the operations of one side, in order -/
def side (b : Bool) (ops : List (Bool × Op V)) : List (Op V) := (ops.filter fun o => o.1 == b).map Prod.snd

theorem interleave {c1 c2 : Container V} (ok1 : Ok h c1) (ok2 : Ok h c2) (ap : Apart c1 c2) (ops : List (Bool × Op V))
    (hl1 : (observe h c1).LegalRun (side true ops)) (hl2 : (observe h c2).LegalRun (side false ops)) :
    let s := ops.foldl exec2 (h, c1, c2)
    observe s.1 s.2.1 = (observe h c1).run (side true ops) ∧
    observe s.1 s.2.2 = (observe h c2).run (side false ops) := by
  induction ops generalizing h c1 c2 with
  | nil => exact ⟨rfl, rfl⟩
  | cons o ops ih =>
    obtain ⟨b, op⟩ := o
    cases b with
    | true =>
      have s1 : side true ((true, op) :: ops) = op :: side true ops := rfl
      have s2 : side false ((true, op) :: ops) = side false ops := rfl
      rw [s1] at hl1 ⊢
      rw [s2] at hl2 ⊢
      obtain ⟨hl, hl1⟩ := hl1
      obtain ⟨e1, e2⟩ := exec_refines ok1 op hl
      obtain ⟨o1, o2, o3⟩ := other_side (frame_exec ok1 op) ok2 ap
      rw [← e2] at hl1
      rw [← o3] at hl2
      have := ih e1 o1 o2 hl1 hl2
      rw [e2, o3] at this
      exact this
    | false =>
      have s1 : side true ((false, op) :: ops) = side true ops := rfl
      have s2 : side false ((false, op) :: ops) = op :: side false ops := rfl
      rw [s1] at hl1 ⊢
      rw [s2] at hl2 ⊢
      obtain ⟨hl, hl2⟩ := hl2
      obtain ⟨e1, e2⟩ := exec_refines ok2 op hl
      obtain ⟨o1, o2, o3⟩ := other_side (frame_exec ok2 op) ok1 ap.symm
      rw [← e2] at hl2
      rw [← o3] at hl1
      have := ih o1 e1 o2.symm hl1 hl2
      rw [e2, o3] at this
      exact this

end
end Verif.Items
