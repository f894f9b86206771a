import Verif.Props.C83
import Verif.Proofs.Tidy.Work
/-! # C85: which files the lint script examines again -/
namespace Verif.Props
open Verif.Tidy Verif.Spec.Tidy

/-- The files considered are the regular files with the endings, in the order of the directory walk, and the key of each is the
exclusive or of the hash of its contents with the hashes of all headers whose name it includes an odd number of times. -/
theorem C85_key (hash : Bytes → BitVec 64) (tree : List (Bytes × Option Bytes)) :
    filesOfInterest hash tree = (filesOf (sourceEndings ++ headerEndings) tree).map fun f => ⟨f.1, key hash tree f.2⟩ :=
  filesOfInterest_eq hash tree

/-- Exactly the files without an entry for their name and key are examined. -/
theorem C85_examined (hash : Bytes → BitVec 64) (d : Dir) (tree : List (Bytes × Option Bytes)) (w : Item) :
    w ∈ buildWorkList hash d tree ↔
      ∃ f ∈ filesOf (sourceEndings ++ headerEndings) tree, w = ⟨f.1, key hash tree f.2⟩ ∧ d.read (filename f.1 ++ bytes!"-" ++ toHex (key hash tree f.2)) = none := by
  unfold buildWorkList
  rw [List.mem_filter, filesOfInterest_eq, List.mem_map]
  constructor
  · rintro ⟨⟨f, hf, rfl⟩, h⟩
    refine ⟨f, hf, rfl, ?_⟩
    unfold needsRefresh at h
    simp only [Option.isNone_iff_eq_none] at h
    have h' : d.read (pathFor ⟨f.1, key hash tree f.2⟩) = none := by rw [Dir.read, h]; rfl
    exact h'
  · rintro ⟨f, hf, rfl, h⟩
    refine ⟨⟨f, hf, rfl⟩, ?_⟩
    unfold needsRefresh
    simp only [Option.isNone_iff_eq_none]
    have h' : (d.names (pathFor ⟨f.1, key hash tree f.2⟩)).map d.data = none := h
    simpa using h'

/-- The same file is in the list of interest of the reshuffled tree with the same key: what the walk of the directories yields
first does not matter. -/
theorem C85_order (hash : Bytes → BitVec 64) (tree tree' : List (Bytes × Option Bytes)) (h : tree.Perm tree') :
    (∀ content, key hash tree content = key hash tree' content) ∧ (filesOfInterest hash tree).Perm (filesOfInterest hash tree') := by
  have hf : ∀ ends, (filesOf ends tree).Perm (filesOf ends tree') := fun ends => h.filterMap _
  have hk : ∀ content, key hash tree content = key hash tree' content := fun content => by
    unfold key
    rw [xorAll_perm (((hf headerEndings).filter _).map _)]
  refine ⟨hk, ?_⟩
  rw [filesOfInterest_eq, filesOfInterest_eq]
  simp only [hk]
  exact (hf _).map _

private theorem filesOf_append (ends : List Bytes) (a b : List (Bytes × Option Bytes)) : filesOf ends (a ++ b) = filesOf ends a ++ filesOf ends b := by
  unfold filesOf
  rw [List.filterMap_append]

private theorem filesOf_one (ends : List Bytes) (path : Bytes) (c : Option Bytes) (f : Bytes × Bytes) (h : f ∈ filesOf ends [(path, c)]) :
    f.1 = path ∧ c = some f.2 := by
  unfold filesOf at h
  simp only [List.mem_filterMap, List.mem_singleton] at h
  obtain ⟨e, rfl, h⟩ := h
  split at h
  · cases c with
    | none => cases h
    | some c => cases h; exact ⟨rfl, rfl⟩
  · cases h

/-- The part of the key that comes from one place of the tree. -/
private theorem key_split (hash : Bytes → BitVec 64) (a b : List (Bytes × Option Bytes)) (path : Bytes) (c : Option Bytes) (content : Bytes) :
    key hash (a ++ (path, c) :: b) content = key hash (a ++ b) content ^^^
      xorAll (((filesOf headerEndings [(path, c)]).filter fun h => includes (filename h.1) content % 2 = 1).map fun h => hash h.2) := by
  have : a ++ (path, c) :: b = a ++ ([(path, c)] ++ b) := by simp
  unfold key
  rw [this, filesOf_append, filesOf_append, filesOf_append]
  simp only [List.filter_append, List.map_append, xorAll_append]
  rw [BitVec.xor_assoc, BitVec.xor_assoc, BitVec.xor_comm (xorAll _) (xorAll (List.map _ (List.filter _ (filesOf headerEndings b))))]

/-- A file that is not included, by its name, an odd number of times has no influence on the key: it may change, vanish or appear.
So headers included by included headers are never noticed. -/
theorem C85_unaffected (hash : Bytes → BitVec 64) (a b : List (Bytes × Option Bytes)) (path : Bytes) (x y : Option Bytes) (content : Bytes)
    (h : includes (filename path) content % 2 = 0) :
    key hash (a ++ (path, x) :: b) content = key hash (a ++ (path, y) :: b) content ∧
      key hash (a ++ (path, x) :: b) content = key hash (a ++ b) content := by
  have : ∀ c : Option Bytes, ((filesOf headerEndings [(path, c)]).filter fun h => includes (filename h.1) content % 2 = 1) = [] := fun c => by
    rw [List.filter_eq_nil_iff]
    intro f hf
    rw [(filesOf_one _ _ _ _ hf).1]
    simp
    omega
  rw [key_split hash a b path x, key_split hash a b path y, this, this]
  simp [xorAll]

/-- A header that is included, by its name, an odd number of times (once, say): the key changes with its contents exactly when their hash changes. -/
theorem C85_header_partial (hash : Bytes → BitVec 64) (a b : List (Bytes × Option Bytes)) (path x y content : Bytes)
    (hx : ¬ Excluded path) (he : Ends path headerEndings) (h : includes (filename path) content % 2 = 1) :
    key hash (a ++ (path, some x) :: b) content = key hash (a ++ (path, some y) :: b) content ↔ hash x = hash y := by
  have : ∀ c : Bytes, ((filesOf headerEndings [(path, some c)]).filter fun h => includes (filename h.1) content % 2 = 1) = [(path, c)] := fun c => by
    have : filesOf headerEndings [(path, some c)] = [(path, c)] := by simp [filesOf, hx, he]
    rw [this]
    simp [h]
  rw [key_split hash a b path (some x), key_split hash a b path (some y), this, this]
  simp [xorAll]

/-- A file whose directives stay the same: the key changes with its contents exactly when their hash changes. -/
theorem C85_content (hash : Bytes → BitVec 64) (tree : List (Bytes × Option Bytes)) (x y : Bytes)
    (h : ∀ name, includes name x % 2 = includes name y % 2) : key hash tree x = key hash tree y ↔ hash x = hash y := by
  unfold key
  have : (fun h' : Bytes × Bytes => decide (includes (filename h'.1) x % 2 = 1)) = fun h' => decide (includes (filename h'.1) y % 2 = 1) := by
    funext f
    rw [h]
  rw [this]
  constructor
  · intro e
    simpa using e
  · intro e
    rw [e]

/-! ## Changes that are not noticed, whatever the hash -/

/-- A header that is included twice. -/
theorem C85_defect_twice (hash : Bytes → BitVec 64) (a b : List (Bytes × Option Bytes)) (path x y content : Bytes) (h : includes (filename path) content = 2) :
    key hash (a ++ (path, some x) :: b) content = key hash (a ++ (path, some y) :: b) content :=
  (C85_unaffected hash a b path (some x) (some y) content (by rw [h])).1

/-- Two headers with the same name and the same contents. -/
theorem C85_defect_same (hash : Bytes → BitVec 64) (a b c : List (Bytes × Option Bytes)) (path path' x y content : Bytes)
    (hx : ¬ Excluded path) (he : Ends path headerEndings) (hx' : ¬ Excluded path') (he' : Ends path' headerEndings) (hn : filename path = filename path') :
    key hash (a ++ (path, some x) :: (b ++ (path', some x) :: c)) content = key hash (a ++ (path, some y) :: (b ++ (path', some y) :: c)) content := by
  have one : ∀ p z, ¬ Excluded p → Ends p headerEndings → filesOf headerEndings [(p, some z)] = [(p, z)] := fun p z h1 h2 => by
    simp [filesOf, h1, h2]
  have both : ∀ z, key hash (a ++ (path, some z) :: (b ++ (path', some z) :: c)) content = key hash (a ++ (b ++ c)) content := fun z => by
    rw [key_split, ← List.append_assoc, key_split, one _ _ hx he, one _ _ hx' he', List.append_assoc]
    by_cases h : includes (filename path') content % 2 = 1
    · simp [hn, h, xorAll_cons, BitVec.xor_assoc]
    · simp [hn, h, xorAll]
  rw [both, both]

/-- Names with two dots (`schema.pb.h`) are never recognised in a directive. -/
theorem C85_defect_dots (name content : Bytes) (h : name.count 0x2e ≠ 1) : includes name content = 0 := by
  induction content with
  | nil => rfl
  | cons c r ih =>
    rw [includes, ih, if_neg]
    rintro ⟨path, ⟨_, _, _, _, _, _, ⟨stem, ext, hp, _, _, hext, hstem⟩, _⟩, hn⟩
    apply h
    have hs : ∀ c ∈ stem, c ≠ 0x2e := fun c hc e => by
      rcases hstem c hc with h | h | h | h | h
      · rw [e] at h; revert h; decide
      · rw [e] at h; revert h; unfold Letter; decide
      · rw [e] at h; revert h; decide
      · rw [e] at h; revert h; decide
      · rw [e] at h; revert h; decide
    have hx : ∀ c ∈ ext, c ≠ 0x2e := fun c hc e => by
      have h := hext c hc
      rw [e] at h; revert h; unfold Letter; decide
    have hy : ∀ c ∈ ext, c ≠ 0x2f := fun c hc e => by
      have h := hext c hc
      rw [e] at h; revert h; unfold Letter; decide
    have hf : ∃ u, filename path = u ++ bytes!"." ++ ext ∧ ∀ c ∈ u, c ∈ stem := by
      refine ⟨(stem.reverse.takeWhile (· ≠ 0x2f)).reverse, ?_, fun c hc => ?_⟩
      · unfold filename
        rw [hp]
        have : (stem ++ bytes!"." ++ ext).reverse = (ext.reverse ++ bytes!".") ++ stem.reverse := by simp
        rw [this, List.takeWhile_append_of_pos]
        · simp
        · intro c hc
          rcases List.mem_append.1 hc with h | h
          · simpa using hy c (by simpa using h)
          · simp only [List.mem_singleton] at h
            rw [h]
            decide
      · have := (List.takeWhile_sublist (p := fun c : UInt8 => decide (c ≠ 0x2f)) (l := stem.reverse)).subset (by simpa using hc)
        simpa using this
    obtain ⟨u, hu, hsub⟩ := hf
    rw [← hn, hu, List.count_append, List.count_append, List.count_eq_zero.2 fun hm => hs _ (hsub _ hm) rfl, List.count_eq_zero.2 fun hm => hx _ hm rfl]
    rfl

/-! ## A second run has nothing to do -/

/-- Once the workers of a run have finished uninterrupted, the same tree needs no further examination. -/
theorem C85_settled (T : Tool) (hash : Bytes → BitVec 64) (tree : List (Bytes × Option Bytes)) (d : Dir) (hd : Sound d) (pid jobs : Nat) (hj : 0 < jobs)
    (hn : ((buildWorkList hash d tree).map pathFor).Nodup) (hno : ∀ w ∈ buildWorkList hash d tree, ∀ out, ¬ T.prints w out true)
    (l : List (Nat × Item)) (s : Sys) (hr : Run T ⟨d, [⟨pid, buildWorkList hash d tree, List.replicate jobs .idle, true⟩]⟩ l s)
    (hdone : ∀ p ∈ s.procs, ∀ ph ∈ p.workers, ph = .stopped) : buildWorkList hash s.dir tree = [] := by
  have st : Starts ⟨d, [⟨pid, buildWorkList hash d tree, List.replicate jobs .idle, true⟩]⟩ :=
    ⟨hd, by simp, by simp, by simp, by simpa using hn⟩
  have hi := Inv.run st hr
  have hlen := hi.len
  obtain ⟨p, hp⟩ : ∃ p, s.procs[0]? = some p := ⟨_, List.getElem?_eq_getElem (by rw [hlen]; simp)⟩
  have res := C83_result T _ s st l hr 0 _ p rfl hp (by simp; omega) (hdone p (List.mem_of_getElem? hp)) hno
  unfold buildWorkList
  rw [List.filter_eq_nil_iff]
  intro w hw hneed
  unfold needsRefresh at hneed
  simp only [Option.isNone_iff_eq_none] at hneed
  by_cases h : w ∈ buildWorkList hash d tree
  · obtain ⟨⟨text, h1, _⟩, _⟩ := res.2 w h
    rw [Dir.read, hneed] at h1
    cases h1
  · have h0 : (d.read (pathFor w)).isSome := by
      unfold buildWorkList at h
      rw [List.mem_filter] at h
      cases hs : d.names (pathFor w) with
      | none => exact absurd ⟨hw, by unfold needsRefresh; rw [hs]; rfl⟩ h
      | some i => simp [Dir.read, hs]
    rcases hi.stored (pathFor w) (fun p _ w' _ e => pathFor_not_tmp w (e ▸ tmpFor_isTmp _ _)) with h' | ⟨t, h1, _⟩
    · have : s.dir.read (pathFor w) = d.read (pathFor w) := by rw [Dir.read_eq, h', ← Dir.read_eq]
      rw [← this, Dir.read, hneed] at h0
      cases h0
    · rw [Dir.read, hneed] at h1
      cases h1

/-! ## Non-vacuity -/

/-- `#include "a/b.h"` and a newline. -/
def sampleSource : Bytes := bytes!"#include \"a/b.h\"\n"

/-- `a/b.h` -/
def samplePath : Bytes := bytes!"a/b.h"

private theorem includes_sample (n : Nat) (text : Bytes) (h : ((hits text).filter fun p => filename p = bytes!"b.h").length = n) :
    includes bytes!"b.h" text = n := by
  rw [includes_eq, ← h]

example : includes (filename samplePath) sampleSource = 1 := includes_sample 1 sampleSource (by decide +kernel)

example : includes (filename samplePath) (sampleSource ++ sampleSource) = 2 := includes_sample 2 (sampleSource ++ sampleSource) (by decide +kernel)

/-- `// #include "a/b.h"` counts as well, `#include <b.h>` does not. -/
example : includes (filename samplePath) (bytes!"// " ++ sampleSource) = 1 ∧
    includes (filename samplePath) bytes!"#include <b.h>" = 0 :=
  ⟨includes_sample 1 _ (by decide +kernel), includes_sample 0 _ (by decide +kernel)⟩

example : ¬ Excluded samplePath ∧ Ends samplePath headerEndings :=
  ⟨fun h => by have := (excluded_iff samplePath).2 h; revert this; decide +kernel, (isInclude_iff samplePath).1 (by decide +kernel)⟩

/-- The two headers `b.h` in different directories. -/
example : filename samplePath = filename bytes!"c/b.h" ∧ Ends bytes!"c/b.h" headerEndings :=
  ⟨by decide, (isInclude_iff _).1 (by decide +kernel)⟩

/-- `b.pb.h` -/
example : (filename bytes!"b.pb.h").count 0x2e ≠ 1 := by decide

/-- A source file and the header it includes are two items with different places. -/
example : ((buildWorkList (fun c => BitVec.ofNat 64 c.length) ⟨fun _ => none, fun _ => [], 0⟩
    [(bytes!"m.cc", some sampleSource), (samplePath, some [])]).map pathFor).Nodup := by decide +kernel

end Verif.Props
