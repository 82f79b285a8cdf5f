import Verif.Sds.DirSpec
import Verif.Sds.FileLemmas

/-! Proof infrastructure: file names, and what saving a directory writes. -/
namespace Verif.Sds
open Verif.Items (Dict Name)
open Verif.Items.Dict

variable {A S X M V : Type}

/-! ## File names -/

/-- the prefix of the file names of the containers in the container at this path -/
def pfx : List Name → Option Name
  | [] => none
  | n :: p => some (joinBang (n :: p))

theorem joinBang_snoc (n : Name) : ∀ (p : List Name), p ≠ [] → joinBang (p ++ [n]) = joinBang p ++ '!' :: n
  | [], h => absurd rfl h
  | [m], _ => rfl
  | m :: k :: p, _ => by
    have := joinBang_snoc n (k :: p) (by simp)
    simp only [List.cons_append] at this ⊢
    show m ++ '!' :: joinBang (k :: (p ++ [n])) = (m ++ '!' :: joinBang (k :: p)) ++ '!' :: n
    rw [this]
    simp

theorem childName_pfx (p : List Name) (n : Name) : childName (pfx p) n = joinBang (p ++ [n]) := by
  cases p with
  | nil => rfl
  | cons m p => rw [joinBang_snoc n (m :: p) (by simp)]; rfl

theorem pfx_snoc (p : List Name) (n : Name) : some (joinBang (p ++ [n])) = pfx (p ++ [n]) := by
  cases p <;> rfl

theorem splitBang_ne (n : Name) : splitBang n ≠ [] := by
  cases n with
  | nil => simp [splitBang]
  | cons c n =>
    rw [splitBang]
    split
    · simp
    · split <;> simp

theorem join_cons (n : Name) (p : List Name) (h : p ≠ []) : joinBang (n :: p) = n ++ '!' :: joinBang p := by
  cases p with
  | nil => exact absurd rfl h
  | cons m p => rfl

theorem join_split : ∀ n : Name, joinBang (splitBang n) = n
  | [] => rfl
  | c :: n => by
    have ih := join_split n
    rw [splitBang]
    split
    · rename_i hc
      rw [join_cons _ _ (splitBang_ne n), ih, hc]; rfl
    · split
      · rename_i h; exact absurd h (splitBang_ne n)
      · rename_i h t ht
        rw [ht] at ih
        cases t with
        | nil => rw [joinBang] at ih ⊢; rw [ih]
        | cons k t =>
          rw [join_cons _ _ (by simp)] at ih ⊢
          rw [← ih]; rfl

theorem split_plain : ∀ n : Name, '!' ∉ n → splitBang n = [n]
  | [], _ => rfl
  | c :: n, h => by
    rw [List.mem_cons, not_or] at h
    rw [splitBang, if_neg (fun e => h.1 e.symm), split_plain n h.2]

theorem split_cons (r : Name) : ∀ n : Name, '!' ∉ n → splitBang (n ++ '!' :: r) = n :: splitBang r
  | [], _ => by simp [splitBang]
  | c :: n, h => by
    rw [List.mem_cons, not_or] at h
    rw [List.cons_append, splitBang, if_neg (fun e => h.1 e.symm), split_cons r n h.2]

theorem split_join : ∀ p : List Name, p ≠ [] → (∀ n ∈ p, '!' ∉ n) → splitBang (joinBang p) = p
  | [], h, _ => absurd rfl h
  | [n], _, h => split_plain n (h n (by simp))
  | n :: m :: p, _, h => by
    rw [join_cons _ _ (by simp), split_cons _ _ (h n (by simp)),
      split_join (m :: p) (by simp) fun k hk => h k (by simp [List.mem_cons.1 hk])]

theorem afterBang_snoc (p : List Name) {n : Name} (h : '!' ∉ n) : afterBang (joinBang (p ++ [n])) = n := by
  have hall : ∀ c ∈ n.reverse, (c != '!') = true := by
    intro c hc
    have : c ≠ '!' := fun e => h (e ▸ List.mem_reverse.1 hc)
    simp [this]
  unfold afterBang
  by_cases hp : p = []
  · subst hp
    rw [List.nil_append, joinBang, takeWhile_all hall, List.reverse_reverse]
  · rw [joinBang_snoc n p hp, List.reverse_append, List.reverse_cons, List.append_assoc,
      List.singleton_append, takeWhile_stop (by decide) _ hall, List.reverse_reverse]

theorem suffix_snoc {e l q : Name} (he : '!' ∉ e) (h : e <:+ q ++ '!' :: l) : e <:+ l := by
  have h1 : '!' :: l <:+ q ++ '!' :: l := List.suffix_append _ _
  rcases List.suffix_or_suffix_of_suffix h h1 with h2 | h2
  · rcases List.suffix_cons_iff.1 h2 with h3 | h3
    · exact absurd (h3 ▸ List.mem_cons_self) he
    · exact h3
  · exact absurd (h2.subset List.mem_cons_self) he

theorem endsSds_snoc (p : List Name) {n : Name} (h : DirName n) : endsSds (joinBang (p ++ [n])) = false := by
  unfold endsSds
  rw [Bool.eq_false_iff, Ne, List.isSuffixOf_iff_suffix]
  intro hs
  by_cases hp : p = []
  · subst hp; exact h.2 hs
  · rw [joinBang_snoc n p hp, List.map_append, List.map_cons] at hs
    exact h.2 (suffix_snoc (e := sdsExt) (by decide) hs)

theorem DirName.bang {n : Name} (h : DirName n) : '!' ∉ n := fun hc => h.1 _ hc (by simp)
theorem DirName.slash {n : Name} (h : DirName n) : '/' ∉ n := fun hc => h.1 _ hc (by simp)

theorem join_mem {c : Char} (hc : c ≠ '!') : ∀ p : List Name, c ∈ joinBang p → ∃ n ∈ p, c ∈ n
  | [], h => by simp [joinBang] at h
  | [n], h => ⟨n, by simp, h⟩
  | n :: m :: p, h => by
    rw [join_cons _ _ (by simp), List.mem_append, List.mem_cons] at h
    rcases h with h | h | h
    · exact ⟨n, by simp, h⟩
    · exact absurd h hc
    · obtain ⟨k, hk, hck⟩ := join_mem hc (m :: p) h
      exact ⟨k, List.mem_cons_of_mem _ hk, hck⟩

/-- writing the file of a container -/
theorem writeFile_eq (L : Lib A S X M) {p : List Name} {n : Name} (hp : ∀ k ∈ p ++ [n], DirName k)
    (i : Info) (b : Box A S X) (fs : Fs A M) :
    writeFile L (joinBang (p ++ [n])) i b fs = some (fs.set (pathFile (p ++ [n])) (buildFile L i b)) := by
  have hn := hp n (by simp)
  unfold writeFile
  rw [afterBang_snoc p hn.bang, if_neg, if_neg]
  · rw [fileName, endsSds_snoc p hn]; rfl
  · intro hc
    rw [List.contains_iff_mem] at hc
    obtain ⟨k, hk, hck⟩ := join_mem (by decide) _ hc
    exact (hp k hk).slash hck
  · intro hc
    obtain ⟨c, hc1, hc2⟩ := List.any_eq_true.1 hc
    rw [List.contains_iff_mem] at hc2
    refine hn.1 c hc1 ?_
    simp only [invalidChars] at hc2
    exact List.mem_cons_of_mem _ hc2

/-! ## What saving writes -/

theorem needsFile_iff (b : Box A S X) : needsFile b = true ↔ ¬ b.OnlyBoxes := by
  have key : ∀ b : Box A S X, b ≠ .nil → (needsFile b = false ↔ b.boxNames = b.names) := by
    intro b
    induction b with
    | nil => intro h; exact absurd rfl h
    | leaf n l rest ih =>
      intro _
      have hle : ∀ c : Box A S X, c.boxNames.length ≤ c.names.length := by
        intro c
        induction c with
        | nil => simp [Box.boxNames]
        | leaf n l rest ih => rw [names_leaf]; simp only [Box.boxNames, List.length_cons]; omega
        | nest n i b rest _ ih => rw [names_nest]; simp only [Box.boxNames, List.length_cons]; omega
      simp only [needsFile, Bool.true_eq_false, Box.boxNames, names_leaf, false_iff]
      intro he
      have := hle rest
      rw [he, List.length_cons] at this
      omega
    | nest n i b rest _ ih =>
      intro _
      rw [names_nest, Box.boxNames]
      cases rest with
      | nil => simp [needsFile, Box.boxNames, Box.names, Box.items]
      | leaf m l rest =>
        rw [List.cons_inj_right, ← ih (by simp)]; rfl
      | nest m j c rest =>
        rw [List.cons_inj_right, ← ih (by simp)]; rfl
  unfold Box.OnlyBoxes
  by_cases hb : b = .nil
  · subst hb; simp [needsFile]
  · rw [not_and, ← Bool.not_eq_false, key b hb]
    simp [hb]

def setAll (fs : Dict Name V) (ws : List (Name × V)) : Dict Name V :=
  ws.foldl (fun (d : Dict Name V) (w : Name × V) => d.set w.1 w.2) fs

theorem setAll_append (fs : Dict Name V) (a b : List (Name × V)) :
    setAll fs (a ++ b) = setAll (setAll fs a) b := List.foldl_append

theorem setAll_nodup : ∀ (ws : List (Name × V)) (fs : Dict Name V), (keys fs).Nodup → (keys (setAll fs ws)).Nodup
  | [], _, h => h
  | _ :: ws, _, h => setAll_nodup ws _ (nodup_set h _ _)

theorem setAll_keys (k : Name) : ∀ (ws : List (Name × V)) (fs : Dict Name V),
    k ∈ keys (setAll fs ws) ↔ k ∈ keys fs ∨ ∃ w ∈ ws, w.1 = k
  | [], fs => by simp [setAll]
  | w :: ws, fs => by
    have := setAll_keys k ws (fs.set w.1 w.2)
    simp only [setAll, List.foldl_cons] at this ⊢
    rw [this, mem_keys_set]
    constructor
    · rintro ((rfl | h) | ⟨w', h1, h2⟩)
      · exact Or.inr ⟨w, by simp, rfl⟩
      · exact Or.inl h
      · exact Or.inr ⟨w', by simp [h1], h2⟩
    · rintro (h | ⟨w', h1, h2⟩)
      · exact Or.inl (Or.inr h)
      · rcases List.mem_cons.1 h1 with rfl | h1
        · exact Or.inl (Or.inl h2.symm)
        · exact Or.inr ⟨w', h1, h2⟩

theorem setAll_get_other (k : Name) : ∀ (ws : List (Name × V)) (fs : Dict Name V), (∀ w ∈ ws, w.1 ≠ k) →
    (setAll fs ws).get k = fs.get k
  | [], _, _ => rfl
  | w :: ws, fs, h => by
    have := setAll_get_other k ws (fs.set w.1 w.2) fun w' hw => h w' (by simp [hw])
    simp only [setAll, List.foldl_cons] at this ⊢
    rw [this, get_set, if_neg fun e => h w (by simp) e.symm]

theorem setAll_get (k : Name) (v : V) : ∀ (ws : List (Name × V)) (fs : Dict Name V),
    (∀ w ∈ ws, w.1 = k → w.2 = v) → (∃ w ∈ ws, w.1 = k) → (setAll fs ws).get k = some v
  | [], _, _, h => by simp at h
  | w :: ws, fs, h, hex => by
    by_cases hw : ∃ w ∈ ws, w.1 = k
    · have := setAll_get k v ws (fs.set w.1 w.2) (fun w' hw' => h w' (by simp [hw'])) hw
      simpa [setAll] using this
    · push Not at hw
      have := setAll_get_other k ws (fs.set w.1 w.2) hw
      simp only [setAll, List.foldl_cons] at this ⊢
      obtain ⟨w', h1, h2⟩ := hex
      rcases List.mem_cons.1 h1 with rfl | h1
      · rw [this, get_set, if_pos h2.symm, h _ (by simp) h2]
      · exact absurd h2 (hw w' h1)

/-- the files written for the containers in the container at this path, in order -/
def writes (L : Lib A S X M) : List Name → Box A S X → List (Name × File A M)
  | _, .nil => []
  | p, .leaf _ _ rest => writes L p rest
  | p, .nest n i b rest =>
    writes L (p ++ [n]) b ++ ((if needsFile b then [(pathFile (p ++ [n]), buildFile L i b)] else []) ++
      writes L p rest)

theorem saveKids_eq (L : Lib A S X M) : ∀ (b : Box A S X) (p : List Name) (fs : Fs A M), DirNames b →
    (∀ k ∈ p, DirName k) → saveKids L (pfx p) b fs = some (setAll fs (writes L p b))
  | .nil, p, fs, _, _ => rfl
  | .leaf n l rest, p, fs, h, hp => saveKids_eq L rest p fs h.2.2 hp
  | .nest n i b rest, p, fs, h, hp => by
    have hp' : ∀ k ∈ p ++ [n], DirName k := by
      intro k hk
      rcases List.mem_append.1 hk with hk | hk
      · exact hp k hk
      · exact (List.mem_singleton.1 hk) ▸ h.1
    rw [saveKids, childName_pfx, pfx_snoc, saveKids_eq L b (p ++ [n]) fs h.2.2.2.1 hp']
    simp only
    rw [writeFile_eq L hp', writes, setAll_append, setAll_append]
    by_cases hb : needsFile b
    · simp only [hb, if_true]
      rw [saveKids_eq L rest p _ h.2.2.2.2 hp]
      rfl
    · simp only [hb]
      rw [if_neg (by simp)]
      simp only
      rw [saveKids_eq L rest p _ h.2.2.2.2 hp]
      rfl

theorem follow_nil (c : Info × Box A S X) : follow [] c = some c := rfl

theorem follow_leaf (m n : Name) (l : Leaf A S X) (p : List Name) (i j : Info) (rest : Box A S X) (hmn : m ≠ n) :
    follow (n :: p) (i, .leaf m l rest) = follow (n :: p) (j, rest) := by
  simp [follow, Box.find, hmn]

theorem find_notMem : ∀ (b : Box A S X) (n : Name), n ∉ b.names → b.find n = none
  | .nil, n, _ => rfl
  | .leaf m l rest, n, h => by
    rw [names_leaf, List.mem_cons, not_or] at h
    rw [Box.find, if_neg fun e => h.1 e.symm, find_notMem rest n h.2]
  | .nest m i b rest, n, h => by
    rw [names_nest, List.mem_cons, not_or] at h
    rw [Box.find, if_neg fun e => h.1 e.symm, find_notMem rest n h.2]

theorem mem_writes (L : Lib A S X M) (w : Name × File A M) : ∀ (b : Box A S X) (p : List Name) (i0 : Info),
    DirNames b →
    (w ∈ writes L p b ↔ ∃ q c, q ≠ [] ∧ follow q (i0, b) = some c ∧ needsFile c.2 = true ∧
      w = (pathFile (p ++ q), buildFile L c.1 c.2))
  | .nil, p, i0, _ => by
    simp only [writes, List.not_mem_nil, false_iff]
    rintro ⟨q, c, hq, hf, -⟩
    cases q with
    | nil => exact hq rfl
    | cons n q => simp [follow, Box.find] at hf
  | .leaf m l rest, p, i0, h => by
    rw [writes, mem_writes L w rest p i0 h.2.2]
    constructor
    · rintro ⟨q, c, hq, hf, h1, h2⟩
      refine ⟨q, c, hq, ?_, h1, h2⟩
      cases q with
      | nil => exact absurd rfl hq
      | cons n q =>
        by_cases hmn : m = n
        · subst hmn
          simp [follow, find_notMem rest m h.2.1] at hf
        · rw [follow_leaf m n l q i0 i0 rest hmn]; exact hf
    · rintro ⟨q, c, hq, hf, h1, h2⟩
      refine ⟨q, c, hq, ?_, h1, h2⟩
      cases q with
      | nil => exact absurd rfl hq
      | cons n q =>
        by_cases hmn : m = n
        · subst hmn
          simp [follow, Box.find] at hf
        · rw [follow_leaf m n l q i0 i0 rest hmn] at hf; exact hf
  | .nest m i b rest, p, i0, h => by
    have hsub := mem_writes L w b (p ++ [m]) i h.2.2.2.1
    have hrest := mem_writes L w rest p i0 h.2.2.2.2
    rw [writes, List.mem_append, List.mem_append, hsub, hrest]
    constructor
    · rintro (⟨q, c, hq, hf, h1, h2⟩ | hw | ⟨q, c, hq, hf, h1, h2⟩)
      · refine ⟨m :: q, c, by simp, ?_, h1, by rw [h2, List.append_assoc]; rfl⟩
        simpa [follow, Box.find] using hf
      · by_cases hb : needsFile b = true
        · rw [if_pos hb, List.mem_singleton] at hw
          exact ⟨[m], (i, b), by simp, by simp [follow, Box.find], hb, hw⟩
        · rw [if_neg hb] at hw; simp at hw
      · refine ⟨q, c, hq, ?_, h1, h2⟩
        cases q with
        | nil => exact absurd rfl hq
        | cons n q =>
          by_cases hmn : m = n
          · subst hmn
            simp [follow, find_notMem rest m h.2.2.1] at hf
          · simp only [follow, Box.find, if_neg hmn] at hf ⊢; exact hf
    · rintro ⟨q, c, hq, hf, h1, h2⟩
      cases q with
      | nil => exact absurd rfl hq
      | cons n q =>
        by_cases hmn : m = n
        · subst hmn
          have hf : follow q (i, b) = some c := by simpa [follow, Box.find] using hf
          cases q with
          | nil =>
            rw [follow_nil] at hf
            cases hf
            exact Or.inr (Or.inl (by rw [if_pos h1, h2]; simp))
          | cons k q =>
            exact Or.inl ⟨k :: q, c, by simp, hf, h1, by rw [h2, List.append_assoc]; rfl⟩
        · refine Or.inr (Or.inr ⟨n :: q, c, by simp, ?_, h1, h2⟩)
          simp only [follow, Box.find, if_neg hmn] at hf ⊢; exact hf

end Verif.Sds
