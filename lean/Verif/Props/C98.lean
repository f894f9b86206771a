import Verif.Proofs.Walk
import Verif.Props.C43_C49
/-! # C98: the tile types below the database directory

The index of the tile types is built by a walk over the directory tree.  What is said of a tree holds for every shape and size of it, every
order in which its directories list their entries, and every place where they refuse to. -/
namespace Verif.Props
open Verif.Db Verif.Spec Verif.Text

private theorem index_flat (env : Env) (root : Path) (c : Contents) (fuel : Nat) (hc : c ≠ .failed) (hf : c.count ≤ fuel) :
    indexWalk env root c fuel = some (.ok ((c.flat root).1.foldl (indexStep env) []), []) := by
  have h2 : (nextEntry [(root, c)]).2 = false := by
    cases h3 : (nextEntry [(root, c)]).2
    · rfl
    · exact absurd ((nextEntry_root root c).1 h3) hc
  have key := walkLoop_stack env fuel [(root, c)] [] [] (by rw [countStack_one]; exact hf)
  rw [flatStack_one] at key
  unfold indexWalk
  generalize nextEntry [(root, c)] = x at h2 key
  obtain ⟨it, ec⟩ := x
  cases h2
  dsimp only
  rw [key]
  rfl

private theorem loop_more (env : Env) : ∀ (fuel k : Nat) (s : Option WalkIter × Bool) (m : List (Bytes × DbPaths)) (out : List WalkMessage)
    (r : List (Bytes × DbPaths) × List WalkMessage), walkLoop env fuel s m out = some r → walkLoop env (fuel + k) s m out = some r := by
  intro fuel
  induction fuel with
  | zero =>
    intro k s m out r h
    obtain ⟨it, ec⟩ := s
    cases it with
    | none => rw [walkLoop] at h ⊢; exact h
    | some it => cases ec <;> rw [walkLoop] at h <;> cases h
  | succ fuel ih =>
    intro k s m out r h
    obtain ⟨it, ec⟩ := s
    cases it with
    | none => rw [walkLoop] at h ⊢; exact h
    | some it =>
      rw [Nat.add_right_comm]
      cases ec <;> rw [walkLoop] at h ⊢ <;> exact ih _ _ _ _ _ h

/-- However many iterations the walk takes, if it ends it ends like this. -/
private theorem walk_result {env : Env} {root : Path} {c : Contents} {fuel : Nat} {r : Outcome (List (Bytes × DbPaths)) × List WalkMessage}
    (h : indexWalk env root c fuel = some r) :
    (c = .failed ∧ r = (.err, [])) ∨ (c ≠ .failed ∧ r = (.ok ((c.flat root).1.foldl (indexStep env) []), [])) := by
  by_cases hc : c = .failed
  · subst hc
    cases h
    exact Or.inl ⟨rfl, rfl⟩
  · right
    refine ⟨hc, ?_⟩
    have h2 : indexWalk env root c (fuel + c.count) = some r := by
      unfold indexWalk at h ⊢
      generalize nextEntry [(root, c)] = x at h ⊢
      obtain ⟨it, ec⟩ := x
      cases ec with
      | true => exact h
      | false =>
        dsimp only at h ⊢
        rw [Option.map_eq_some_iff] at h
        obtain ⟨y, h3, h4⟩ := h
        rw [loop_more env _ _ _ _ _ _ h3]
        rw [← h4]
        rfl
    rw [index_flat env root c _ hc (by omega)] at h2
    exact (Option.some.inj h2).symm

/-- **The walk comes to an end, prints nothing**, and gives the index the program goes on with: it is the program of `Model/Database.lean`
on a file system that shows this tree. -/
theorem C98_same_program (env : Env) (root : Path) (c : Contents) (hl : env.listing root = treeListing root c) (fuel : Nat)
    (hf : c.count ≤ fuel) : indexWalk env root c fuel = some (indexTileTypes env root, []) := by
  unfold indexTileTypes
  rw [hl]
  by_cases hc : c = .failed
  · subst hc
    rfl
  · rw [treeListing_eq root c hc, index_flat env root c fuel hc hf]
    rfl

/-- Whatever happens on the way, nothing is printed: both messages of the walk are dead code. -/
theorem C98_silent (env : Env) (root : Path) (c : Contents) (fuel : Nat) (r : Outcome (List (Bytes × DbPaths))) (out : List WalkMessage)
    (h : indexWalk env root c fuel = some (r, out)) : out = [] := by
  rcases walk_result h with ⟨_, h⟩ | ⟨_, h⟩ <;> cases h <;> rfl

/-- The walk fails exactly if the database directory itself cannot be read at all, for another reason than missing permission. -/
theorem C98_error (env : Env) (root : Path) (c : Contents) (fuel : Nat) (r : Outcome (List (Bytes × DbPaths))) (out : List WalkMessage)
    (h : indexWalk env root c fuel = some (r, out)) : (r = .err ↔ c = .failed) ∧ (c ≠ .failed → ∃ m, r = .ok m) := by
  rcases walk_result h with ⟨h1, h⟩ | ⟨h1, h⟩ <;> cases h
  · exact ⟨⟨fun _ => h1, fun _ => rfl⟩, fun h => absurd h1 h⟩
  · refine ⟨⟨?_, fun h => absurd h h1⟩, fun _ => ⟨_, rfl⟩⟩
    intro h
    cases h

private theorem index_iff {env : Env} {root : Path} {c : Contents} {fuel : Nat} {m : List (Bytes × DbPaths)} {out : List WalkMessage}
    (h : indexWalk env root c fuel = some (.ok m, out)) (T : Bytes) (d : DbPaths) :
    m.lookup T = some d ↔ ∃ dir, FirstTypeDir (c.flat root).1 T dir ∧
      FileIfPresent env (dir ++ [segbitsFile (lowerCase T)]) d.segbits ∧
      FileIfPresent env (dir ++ [blockRamFile (lowerCase T)]) d.blockRam ∧
      FileIfPresent env (dir ++ [ppipsFile (lowerCase T)]) d.ppips := by
  rcases walk_result h with ⟨_, h1⟩ | ⟨hc, h1⟩
  · cases h1
  have h2 := (Outcome.ok.inj (Prod.mk.inj h1).1)
  have h3 : indexTileTypes { env with listing := fun _ => some (c.flat root).1 } root = .ok m := by
    rw [h2]
    rfl
  exact C44_index { env with listing := fun _ => some (c.flat root).1 } root _ m rfl h3 T d

private theorem first_exists (T : Bytes) : ∀ (es : List (Path × Bool)) (dir : Path), (dir ++ [tileTypeFile T], true) ∈ es →
    ∃ d, FirstTypeDir es T d := by
  intro es
  induction es with
  | nil => intro dir h; cases h
  | cons e es ih =>
    intro dir h
    by_cases he : ∃ d, e = (d ++ [tileTypeFile T], true)
    · obtain ⟨d, rfl⟩ := he
      exact ⟨d, [], es, rfl, by simp⟩
    · rcases List.mem_cons.1 h with h | h
      · exact absurd ⟨dir, h.symm⟩ he
      · obtain ⟨d, pre, post, h1, h2⟩ := ih dir h
        refine ⟨d, e :: pre, post, by rw [h1]; rfl, ?_⟩
        intro x hx d'
        rcases List.mem_cons.1 hx with rfl | hx
        · exact fun hh => he ⟨d', hh⟩
        · exact h2 x hx d'

/-- A path below the root that ends in a file name, split before that name. -/
private theorem split_below {root dir r : Path} {name : Bytes} (hr : r ≠ []) (h : dir ++ [name] = root ++ r) :
    ∃ sub, dir = root ++ sub ∧ r = sub ++ [name] := by
  obtain ⟨sub, x, rfl⟩ : ∃ sub x, r = sub ++ [x] := ⟨r.dropLast, r.getLast hr, (List.dropLast_concat_getLast hr).symm⟩
  rw [← List.append_assoc] at h
  obtain ⟨h1, h2⟩ := List.append_inj' h rfl
  exact ⟨sub, h1, by rw [List.cons.inj h2 |>.1]⟩

private theorem fileAt_ne {c : Contents} {p : Path} (h : FileAt c p) : p ≠ [] := by
  induction h with
  | here => simp
  | inside => simp
  | later _ _ _ ih => exact ih

/-- What `indexed` means: the segment and pseudo PIP files of the type are looked for in the directory `root/sub`. -/
def IndexedAt (env : Env) (root sub : Path) (T : Bytes) (d : DbPaths) : Prop :=
  FileIfPresent env (root ++ sub ++ [segbitsFile (lowerCase T)]) d.segbits ∧
  FileIfPresent env (root ++ sub ++ [blockRamFile (lowerCase T)]) d.blockRam ∧
  FileIfPresent env (root ++ sub ++ [ppipsFile (lowerCase T)]) d.ppips

/-- **Every tile type is found**: if no directory fails, a tile type is in the index exactly if somewhere below the root, however deep, there is
a regular file `tile_type_T.json` (not behind a link to a directory or a directory without permission). -/
theorem C98_complete (env : Env) (root : Path) (c : Contents) (hb : ¬ Broken c) (fuel : Nat) (m : List (Bytes × DbPaths))
    (out : List WalkMessage) (h : indexWalk env root c fuel = some (.ok m, out)) (T : Bytes) :
    (∃ d, m.lookup T = some d) ↔ ∃ sub, FileAt c (sub ++ [tileTypeFile T]) := by
  have hstop : (c.flat root).2 = false := by
    cases h3 : (c.flat root).2
    · rfl
    · exact absurd ((contents_stops root c).1 h3) hb
  constructor
  · rintro ⟨d, hd⟩
    obtain ⟨dir, ⟨pre, post, h1, _⟩, _⟩ := (index_iff h T d).1 hd
    obtain ⟨r, h2, h3⟩ := contents_sound root (dir ++ [tileTypeFile T]) c (by rw [h1]; simp)
    obtain ⟨sub, _, rfl⟩ := split_below (fileAt_ne h2) h3
    exact ⟨sub, h2⟩
  · rintro ⟨sub, hs⟩
    have hm := (contents_files root (root ++ (sub ++ [tileTypeFile T])) c hstop).2 ⟨_, hs, rfl⟩
    rw [← List.append_assoc] at hm
    obtain ⟨dir, hdir⟩ := first_exists T _ _ hm
    have := (index_iff h T (databasePaths env (dir ++ [tileTypeFile T])).2).2
    have hp : ∀ p, FileIfPresent env p (ifExists env p) := by
      intro p
      unfold FileIfPresent ifExists
      cases env.fileExists p <;> simp
    exact ⟨⟨ifExists env (dir ++ [segbitsFile (lowerCase T)]), ifExists env (dir ++ [blockRamFile (lowerCase T)]),
      ifExists env (dir ++ [ppipsFile (lowerCase T)])⟩, (index_iff h T _).2 ⟨dir, hdir, hp _, hp _, hp _⟩⟩

/-- **Nothing is made up**: also in a tree with failing directories, an indexed type has a regular file `tile_type_T.json` in the tree, and its
files are those in the directory of that file. -/
theorem C98_sound (env : Env) (root : Path) (c : Contents) (fuel : Nat) (m : List (Bytes × DbPaths)) (out : List WalkMessage)
    (h : indexWalk env root c fuel = some (.ok m, out)) (T : Bytes) (d : DbPaths) (hd : m.lookup T = some d) :
    ∃ sub, FileAt c (sub ++ [tileTypeFile T]) ∧ IndexedAt env root sub T d := by
  obtain ⟨dir, ⟨pre, post, h1, _⟩, h2⟩ := (index_iff h T d).1 hd
  obtain ⟨r, h3, h4⟩ := contents_sound root (dir ++ [tileTypeFile T]) c (by rw [h1]; simp)
  obtain ⟨sub, rfl, rfl⟩ := split_below (fileAt_ne h3) h4
  exact ⟨sub, h3, h2⟩

/-- If a type has one such file and no directory fails, the index says exactly where, whatever the order of the entries. -/
theorem C98_single (env : Env) (root : Path) (c : Contents) (hb : ¬ Broken c) (fuel : Nat) (m : List (Bytes × DbPaths))
    (out : List WalkMessage) (h : indexWalk env root c fuel = some (.ok m, out)) (T : Bytes) (sub : Path)
    (hs : FileAt c (sub ++ [tileTypeFile T])) (hu : ∀ sub', FileAt c (sub' ++ [tileTypeFile T]) → sub' = sub) (d : DbPaths) :
    m.lookup T = some d ↔ IndexedAt env root sub T d := by
  have key : ∀ d, m.lookup T = some d → IndexedAt env root sub T d := by
    intro d hd
    obtain ⟨sub', h1, h2⟩ := C98_sound env root c fuel m out h T d hd
    rw [hu sub' h1] at h2
    exact h2
  refine ⟨key d, ?_⟩
  intro hd
  obtain ⟨d', hd'⟩ := (C98_complete env root c hb fuel m out h T).2 ⟨sub, hs⟩
  obtain ⟨a1, a2, a3⟩ := key d' hd'
  obtain ⟨b1, b2, b3⟩ := hd
  have uniq : ∀ {p : Path} {o o' : Option Path}, FileIfPresent env p o → FileIfPresent env p o' → o = o' := by
    intro p o o' h h'
    unfold FileIfPresent at h h'
    rcases h with ⟨h1, h2⟩ | ⟨h1, h2⟩ <;> rcases h' with ⟨h3, h4⟩ | ⟨h3, h4⟩
    · rw [h2, h4]
    · rw [h1] at h3; cases h3
    · rw [h1] at h3; cases h3
    · rw [h2, h4]
  rw [hd']
  cases d with | mk x y z =>
  cases d' with | mk x' y' z' =>
  obtain rfl : x' = x := uniq a1 b1
  obtain rfl : y' = y := uniq a2 b2
  obtain rfl : z' = z := uniq a3 b3
  rfl

/-- **A failing directory loses types, it does not change them**: an indexed type is indexed the same way when the failing directories of the
tree can be read.  (What they hold is arbitrary; the rest of the tree, in the order of the entries, is the same.) -/
theorem C98_failures_only_lose (env : Env) (root : Path) (c c' : Contents) (hr : Repaired c c') (fuel fuel' : Nat)
    (m m' : List (Bytes × DbPaths)) (out out' : List WalkMessage) (h : indexWalk env root c fuel = some (.ok m, out))
    (h' : indexWalk env root c' fuel' = some (.ok m', out')) (T : Bytes) (d : DbPaths) (hd : m.lookup T = some d) : m'.lookup T = some d := by
  obtain ⟨dir, ⟨pre, post, h1, h2⟩, h3⟩ := (index_iff h T d).1 hd
  refine (index_iff h' T d).2 ⟨dir, ?_, h3⟩
  have he := contents_repaired root hr
  have hp : (c.flat root).1 <+: (c'.flat root).1 := by
    unfold Extends at he
    split at he
    · exact he
    · rw [he]; exact List.prefix_rfl
  obtain ⟨more, hm⟩ := hp
  exact ⟨pre, post ++ more, by rw [← hm, h1]; simp, h2⟩

/-- The walk ends at the first failing directory: of a tree with one it lists a part of the entries, from the first on without gaps, of what it
lists when that directory can be read. -/
theorem C98_until_failure (root : Path) (c : Contents) (hb : Broken c) (h : c ≠ .failed) :
    ∃ entries, treeListing root c = some entries ∧ ∀ c', Repaired c c' → ∃ more, treeListing root c' = some (entries ++ more) := by
  refine ⟨_, treeListing_eq root c h, ?_⟩
  intro c' hr
  have hstop := (contents_stops root c).2 hb
  have he := contents_repaired root hr
  unfold Extends at he
  rw [if_pos hstop] at he
  obtain ⟨more, hm⟩ := he
  refine ⟨more, ?_⟩
  rw [treeListing_eq root c', hm]
  rintro rfl
  cases hr
  exact h rfl

/-! ## Examples -/

/-- A tree: a file at the top, a directory without permission, a dangling link, a deep directory, a directory with the same type again. -/
def sampleTree : Contents :=
  .cons bytes!"a" (.dir .denied) <| .cons (tileTypeFile bytes!"X") .file <| .cons bytes!"l" .other <| .cons bytes!"s" .lost <|
  .cons bytes!"b" (.dir <| .cons bytes!"c" (.dir <| .cons (tileTypeFile bytes!"Y") .file .nil) .nil) <|
  .cons bytes!"d" (.dir <| .cons (tileTypeFile bytes!"X") .file .nil) .nil

/-- The same with a directory `b` that fails when it is read on after its first entry. -/
def failingTree : Contents :=
  .cons bytes!"a" (.dir .denied) <| .cons (tileTypeFile bytes!"X") .file <|
  .cons bytes!"b" (.dir <| .cons (tileTypeFile bytes!"Z") .file .failed) <|
  .cons (tileTypeFile bytes!"Y") .file .nil

example : ¬ Broken sampleTree := by
  rw [← contents_stops []]
  decide +kernel
example : Broken failingTree := by
  rw [← contents_stops []]
  decide +kernel
example : ∃ m, indexWalk demoEnv [bytes!"r"] sampleTree sampleTree.count = some (.ok m, []) ∧ m.map (·.1) = [bytes!"X", bytes!"Y"] :=
  ⟨_, rfl, by decide +kernel⟩
example : FileAt sampleTree ([bytes!"b", bytes!"c"] ++ [tileTypeFile bytes!"Y"]) :=
  .later _ _ <| .later _ _ <| .later _ _ <| .later _ _ <| .inside _ _ <| .inside _ _ <| .here _ _
/-- `Y` is lost, and nobody is told. -/
example : ∃ m, indexWalk demoEnv [bytes!"r"] failingTree failingTree.count = some (.ok m, []) ∧ m.map (·.1) = [bytes!"X", bytes!"Z"] :=
  ⟨_, rfl, by decide +kernel⟩
example : Repaired failingTree
    (.cons bytes!"a" (.dir .denied) <| .cons (tileTypeFile bytes!"X") .file <|
      .cons bytes!"b" (.dir <| .cons (tileTypeFile bytes!"Z") .file <| .cons bytes!"q" .other .nil) <|
      .cons (tileTypeFile bytes!"Y") .file .nil) :=
  .cons _ (.same _) <| .cons _ (.same _) <| .cons _ (.dir <| .cons _ (.same _) (.failed _)) <| .cons _ (.same _) .nil

end Verif.Props
