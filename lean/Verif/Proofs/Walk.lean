import Verif.Spec.Walk
/-! # The walk over a directory tree delivers its entries in preorder -/
namespace Verif.Db
open Verif.Text Verif.Spec

mutual
/-- The entries below a node in preorder, and whether an error ended the walk. -/
def DirEntry.flat (p : Path) : DirEntry → List (Path × Bool) × Bool
  | .dir c => c.flat p
  | _ => ([], false)
/-- The entries of a directory in preorder, and whether an error ended the walk. -/
def Contents.flat (p : Path) : Contents → List (Path × Bool) × Bool
  | .nil => ([], false)
  | .denied => ([], false)
  | .failed => ([], true)
  | .cons name node rest =>
    let a := node.flat (p ++ [name])
    let b := rest.flat p
    if a.2 then ((p ++ [name], (isRegularFile node).1) :: a.1, true)
    else ((p ++ [name], (isRegularFile node).1) :: (a.1 ++ b.1), b.2)
end

/-- First one, then the other unless there was an error. -/
def andThen (a b : List (Path × Bool) × Bool) : List (Path × Bool) × Bool := if a.2 then a else (a.1 ++ b.1, b.2)

/-- The entries of a stack of open directories. -/
def flatStack : List (Path × Contents) → List (Path × Bool) × Bool
  | [] => ([], false)
  | (p, c) :: up => andThen (c.flat p) (flatStack up)

/-- How many entries a stack of open directories has still to deliver. -/
def countStack : List (Path × Contents) → Nat
  | [] => 0
  | (_, c) :: up => c.count + countStack up

theorem andThen_assoc (a b c : List (Path × Bool) × Bool) : andThen (andThen a b) c = andThen a (andThen b c) := by
  unfold andThen
  cases a with | mk a x =>
  cases b with | mk b y =>
  cases x <;> cases y <;> simp

theorem andThen_nil (a : List (Path × Bool) × Bool) : andThen a ([], false) = a := by
  unfold andThen
  cases a with | mk a x => cases x <;> simp

/-- The entries after the one the iterator points at. -/
def restOf (it : WalkIter) : List (Path × Contents) :=
  match it.node with
  | .dir c => (it.path, c) :: it.opened
  | _ => it.opened

theorem increment_eq (it : WalkIter) : it.increment = nextEntry (restOf it) := by
  unfold WalkIter.increment restOf
  cases it.node <;> rfl

theorem flat_cons (p : Path) (name : Bytes) (node : DirEntry) (rest : Contents) :
    (Contents.cons name node rest).flat p = ((p ++ [name], (isRegularFile node).1) :: (andThen (node.flat (p ++ [name])) (rest.flat p)).1,
      (andThen (node.flat (p ++ [name])) (rest.flat p)).2) := by
  rw [Contents.flat]
  unfold andThen
  cases h : (node.flat (p ++ [name])).2 <;> simp [h]

/-- What `nextEntry` finds on a stack. -/
theorem nextEntry_cases (st : List (Path × Contents)) :
    (nextEntry st = (none, (flatStack st).2) ∧ (flatStack st).1 = []) ∨
    ∃ it, nextEntry st = (some it, false) ∧ countStack (restOf it) + 1 = countStack st ∧
      flatStack st = ((it.path, (isRegularFile it.node).1) :: (flatStack (restOf it)).1, (flatStack (restOf it)).2) := by
  induction st with
  | nil => exact Or.inl ⟨rfl, rfl⟩
  | cons e up ih =>
    obtain ⟨dir, c⟩ := e
    cases c with
    | nil =>
      have e : flatStack ((dir, .nil) :: up) = flatStack up := by
        rw [flatStack, Contents.flat]; simp [andThen]
      have e2 : countStack ((dir, .nil) :: up) = countStack up := by simp [countStack, Contents.count]
      rw [e, e2]
      exact ih
    | denied =>
      have e : flatStack ((dir, .denied) :: up) = flatStack up := by
        rw [flatStack, Contents.flat]; simp [andThen]
      have e2 : countStack ((dir, .denied) :: up) = countStack up := by simp [countStack, Contents.count]
      rw [e, e2]
      exact ih
    | failed =>
      left
      rw [flatStack, Contents.flat]
      exact ⟨rfl, rfl⟩
    | cons name node rest =>
      right
      refine ⟨⟨dir ++ [name], node, (dir, rest) :: up⟩, rfl, ?_, ?_⟩
      · cases node <;> simp [restOf, countStack, Contents.count, DirEntry.count] <;> omega
      · have key : flatStack (restOf ⟨dir ++ [name], node, (dir, rest) :: up⟩) =
            andThen (node.flat (dir ++ [name])) (andThen (rest.flat dir) (flatStack up)) := by
          cases node <;> first | rfl | simp [restOf, flatStack, DirEntry.flat, andThen]
        rw [key, ← andThen_assoc, flatStack, flat_cons]
        generalize andThen (node.flat (dir ++ [name])) (rest.flat dir) = x
        cases x with | mk x b => cases b <;> simp [andThen]

theorem walkEntries_stack (fuel : Nat) : ∀ st : List (Path × Contents), countStack st < fuel →
    walkEntries fuel (nextEntry st) = flatStack st := by
  induction fuel with
  | zero => intro st h; omega
  | succ fuel ih =>
    intro st h
    rcases nextEntry_cases st with ⟨h1, h2⟩ | ⟨it, h1, h2, h3⟩
    · rw [h1]
      show ([], _) = _
      rw [← h2]
    · rw [h1, h3, walkEntries]
      rw [increment_eq, ih _ (by omega)]

/-- One iteration of the index loop, as in `indexTileTypes`. -/
def indexStep (env : Env) (m : List (Bytes × DbPaths)) (e : Path × Bool) : List (Bytes × DbPaths) :=
  let filename := e.1.getLast?.getD []
  if e.2 && startsWith tileTypePrefix filename && jsonSuffix.isSuffixOf filename then
    let p := databasePaths env e.1
    insertNew m p.1 p.2
  else m

theorem walkEntry_eq (env : Env) (it : WalkIter) (m : List (Bytes × DbPaths)) (out : List WalkMessage) :
    walkEntry env it m out = (indexStep env m (it.path, (isRegularFile it.node).1), out) := by
  unfold walkEntry indexStep isRegularFile
  cases it.node <;> simp
  split <;> rfl

theorem walkLoop_stack (env : Env) (fuel : Nat) : ∀ (st : List (Path × Contents)) (m : List (Bytes × DbPaths)) (out : List WalkMessage),
    countStack st ≤ fuel → walkLoop env fuel (nextEntry st) m out = some ((flatStack st).1.foldl (indexStep env) m, out) := by
  induction fuel with
  | zero =>
    intro st m out h
    rcases nextEntry_cases st with ⟨h1, h2⟩ | ⟨it, h1, h2, h3⟩
    · rw [h1, h2]
      rfl
    · omega
  | succ fuel ih =>
    intro st m out h
    rcases nextEntry_cases st with ⟨h1, h2⟩ | ⟨it, h1, h2, h3⟩
    · rw [h1, h2]
      rfl
    · rw [h1, h3, walkLoop]
      dsimp only
      rw [increment_eq, walkEntry_eq, ih _ _ _ (by omega)]
      rfl

theorem flatStack_one (root : Path) (c : Contents) : flatStack [(root, c)] = c.flat root := by
  rw [flatStack, flatStack, andThen_nil]

theorem countStack_one (root : Path) (c : Contents) : countStack [(root, c)] = c.count := by
  rw [countStack, countStack]
  rfl

/-- The walk cannot begin exactly if the directory itself fails at once. -/
theorem nextEntry_root (root : Path) (c : Contents) : (nextEntry [(root, c)]).2 = true ↔ c = .failed := by
  cases c <;> simp [nextEntry]

theorem treeListing_failed (root : Path) : treeListing root .failed = none := rfl

theorem treeListing_eq (root : Path) (c : Contents) (h : c ≠ .failed) : treeListing root c = some (c.flat root).1 := by
  unfold treeListing
  have h2 : (nextEntry [(root, c)]).2 = false := by
    have := nextEntry_root root c
    cases h3 : (nextEntry [(root, c)]).2
    · rfl
    · exact absurd (this.1 h3) h
  have key := walkEntries_stack (c.count + 1) [(root, c)] (by rw [countStack_one]; omega)
  rw [flatStack_one] at key
  rw [← key]
  generalize hx : nextEntry [(root, c)] = x at h2
  obtain ⟨it, ec⟩ := x
  cases h2
  rfl

/-! ## What is in the list -/

mutual
theorem node_files (p q : Path) : ∀ (n : DirEntry), (n.flat p).2 = false →
    ((q, true) ∈ (n.flat p).1 ↔ ∃ c r, n = .dir c ∧ FileAt c r ∧ q = p ++ r)
  | .file, _ => by simp [DirEntry.flat]
  | .other, _ => by simp [DirEntry.flat]
  | .lost, _ => by simp [DirEntry.flat]
  | .dir c, h => by
    rw [DirEntry.flat] at h ⊢
    rw [contents_files p q c h]
    constructor
    · rintro ⟨r, h1, h2⟩; exact ⟨c, r, rfl, h1, h2⟩
    · rintro ⟨c', r, h1, h2, h3⟩; cases h1; exact ⟨r, h2, h3⟩
theorem contents_files (p q : Path) : ∀ (c : Contents), (c.flat p).2 = false →
    ((q, true) ∈ (c.flat p).1 ↔ ∃ r, FileAt c r ∧ q = p ++ r)
  | .nil, _ => by
    simp only [Contents.flat, List.not_mem_nil, false_iff]; rintro ⟨r, h, _⟩; cases h
  | .denied, _ => by
    simp only [Contents.flat, List.not_mem_nil, false_iff]; rintro ⟨r, h, _⟩; cases h
  | .failed, _ => by
    simp only [Contents.flat, List.not_mem_nil, false_iff]; rintro ⟨r, h, _⟩; cases h
  | .cons name node rest, h => by
    rw [flat_cons] at h ⊢
    dsimp only at h ⊢
    have h1 : (node.flat (p ++ [name])).2 = false := by
      unfold andThen at h
      cases h1 : (node.flat (p ++ [name])).2 with
      | false => rfl
      | true => rw [h1] at h; simp [h1] at h
    have e : andThen (node.flat (p ++ [name])) (rest.flat p) = ((node.flat (p ++ [name])).1 ++ (rest.flat p).1, (rest.flat p).2) := by
      unfold andThen; rw [h1]; simp
    rw [e] at h ⊢
    dsimp only at h ⊢
    rw [List.mem_cons, List.mem_append, node_files _ q node h1, contents_files p q rest h]
    constructor
    · rintro (h2 | ⟨c, r, rfl, h3, rfl⟩ | ⟨r, h3, rfl⟩)
      · cases node <;> simp [isRegularFile] at h2
        exact ⟨[name], .here .., h2⟩
      · exact ⟨name :: r, .inside _ _ h3, by simp⟩
      · exact ⟨r, .later _ _ h3, rfl⟩
    · rintro ⟨r, h3, rfl⟩
      cases h3 with
      | here => left; rfl
      | inside _ _ h4 => right; left; exact ⟨_, _, rfl, h4, by simp⟩
      | later _ _ h4 => right; right; exact ⟨r, h4, rfl⟩
end

mutual
theorem node_stops (p : Path) : ∀ (n : DirEntry), (n.flat p).2 = true ↔ ∃ c, n = .dir c ∧ Broken c
  | .file => by simp [DirEntry.flat]
  | .other => by simp [DirEntry.flat]
  | .lost => by simp [DirEntry.flat]
  | .dir c => by rw [DirEntry.flat, contents_stops p c]; simp
theorem contents_stops (p : Path) : ∀ (c : Contents), (c.flat p).2 = true ↔ Broken c
  | .nil => by simp only [Contents.flat, Bool.false_eq_true, false_iff]; intro h; cases h
  | .denied => by simp only [Contents.flat, Bool.false_eq_true, false_iff]; intro h; cases h
  | .failed => by simp only [Contents.flat, true_iff]; exact .here
  | .cons name node rest => by
    rw [flat_cons]
    dsimp only
    have h1 := node_stops (p ++ [name]) node
    have h2 := contents_stops p rest
    unfold andThen
    cases h3 : (node.flat (p ++ [name])).2 with
    | true =>
      obtain ⟨c, rfl, hb⟩ := h1.1 h3
      simp only [if_true, h3, true_iff]
      exact .inside _ _ hb
    | false =>
      simp only [Bool.false_eq_true, if_false, h2]
      constructor
      · exact fun h => .later _ _ h
      · intro h
        cases h with
        | inside _ _ hb => have := h1.2 ⟨_, rfl, hb⟩; rw [h3] at this; cases this
        | later _ _ hb => exact hb
end

mutual
/-- Even if the walk breaks off, what it lists is there. -/
theorem node_sound (p q : Path) : ∀ (n : DirEntry), (q, true) ∈ (n.flat p).1 → ∃ c r, n = .dir c ∧ FileAt c r ∧ q = p ++ r
  | .file => by simp [DirEntry.flat]
  | .other => by simp [DirEntry.flat]
  | .lost => by simp [DirEntry.flat]
  | .dir c => by
    rw [DirEntry.flat]
    intro h
    obtain ⟨r, h1, h2⟩ := contents_sound p q c h
    exact ⟨c, r, rfl, h1, h2⟩
theorem contents_sound (p q : Path) : ∀ (c : Contents), (q, true) ∈ (c.flat p).1 → ∃ r, FileAt c r ∧ q = p ++ r
  | .nil => by simp [Contents.flat]
  | .denied => by simp [Contents.flat]
  | .failed => by simp [Contents.flat]
  | .cons name node rest => by
    rw [flat_cons]
    dsimp only
    intro h
    have h1 : (q, true) = (p ++ [name], (isRegularFile node).1) ∨ (q, true) ∈ (node.flat (p ++ [name])).1 ∨ (q, true) ∈ (rest.flat p).1 := by
      rcases List.mem_cons.1 h with h | h
      · exact Or.inl h
      · unfold andThen at h
        split at h
        · exact Or.inr (Or.inl h)
        · rcases List.mem_append.1 h with h | h
          · exact Or.inr (Or.inl h)
          · exact Or.inr (Or.inr h)
    rcases h1 with h2 | h2 | h2
    · cases node <;> simp [isRegularFile] at h2
      exact ⟨[name], .here .., h2⟩
    · obtain ⟨c, r, rfl, h3, rfl⟩ := node_sound _ q node h2
      exact ⟨name :: r, .inside _ _ h3, by simp⟩
    · obtain ⟨r, h3, rfl⟩ := contents_sound p q rest h2
      exact ⟨r, .later _ _ h3, rfl⟩
end

/-! ## Repairs -/

/-- A walk, and one that went on where the first broke off. -/
def Extends (a b : List (Path × Bool) × Bool) : Prop := if a.2 then a.1 <+: b.1 else a = b

theorem Extends.andThen {a a' b b' : List (Path × Bool) × Bool} (h1 : Extends a a') (h2 : Extends b b') :
    Extends (andThen a b) (andThen a' b') := by
  unfold Extends at *
  unfold Db.andThen
  cases h3 : a.2 with
  | true =>
    rw [h3] at h1
    simp only [if_true, h3] at h1 ⊢
    split
    · exact h1
    · exact h1.trans (List.prefix_append _ _)
  | false =>
    rw [h3] at h1
    simp only [Bool.false_eq_true, if_false] at h1
    subst h1
    simp only [h3, Bool.false_eq_true, if_false]
    split
    · rename_i h4
      rw [h4] at h2
      exact (List.prefix_append_right_inj _).2 h2
    · rename_i h4
      simp only [h4] at h2
      rw [h2]

mutual
theorem node_repaired (p : Path) : ∀ {n n' : DirEntry}, RepairedEntry n n' → Extends (n.flat p) (n'.flat p)
  | _, _, .same n => by
    unfold Extends
    split
    · exact List.prefix_rfl
    · rfl
  | _, _, .dir h => by rw [DirEntry.flat, DirEntry.flat]; exact contents_repaired p h
theorem contents_repaired (p : Path) : ∀ {c c' : Contents}, Repaired c c' → Extends (c.flat p) (c'.flat p)
  | _, _, .nil => by simp [Extends, Contents.flat]
  | _, _, .denied => by simp [Extends, Contents.flat]
  | _, _, .failed c => by simp [Extends, Contents.flat]
  | _, _, @Repaired.cons name n n' r r' hn hr => by
    have h1 := node_repaired (p ++ [name]) hn
    have h2 := contents_repaired p hr
    have hreg : (isRegularFile n').1 = (isRegularFile n).1 := by cases hn <;> rfl
    have h3 := h1.andThen h2
    rw [flat_cons, flat_cons, hreg]
    unfold Extends at h3 ⊢
    dsimp only
    split
    · rename_i h4
      rw [if_pos h4] at h3
      exact List.cons_prefix_cons.2 ⟨rfl, h3⟩
    · rename_i h4
      rw [if_neg h4] at h3
      rw [h3]
end

end Verif.Db
