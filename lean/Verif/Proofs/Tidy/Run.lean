import Verif.Proofs.Tidy.Store
/-! Invariant of the workers. -/
namespace Verif.Tidy
open Verif.Spec.Tidy

/-- The item a worker is busy with. -/
def held : Phase → Option Item
  | .idle => none
  | .start w => some w
  | .running w _ _ _ _ => some w
  | .reading w => some w
  | .opening w _ => some w
  | .writing w _ _ _ => some w
  | .moving w => some w
  | .stopped => none

/-- The text stored for an item when the tool prints `out`. -/
def text (T : Tool) (w : Item) (out : Bytes) : Bytes := T.repair (filename w.path) out

/-- What the temporary file of a busy worker holds. -/
def PhaseOk (T : Tool) (pid : Nat) (d : Dir) : Phase → Prop
  | .idle => True
  | .start _ => True
  | .running w i pos rest intr => ∃ old, d.file (tmpFor pid w) = some (i, old) ∧ old.length = pos ∧ T.prints w (old ++ rest) intr
  | .reading w => ∃ i out, d.file (tmpFor pid w) = some (i, out) ∧ T.prints w out false
  | .opening w t => ∃ out, T.prints w out false ∧ t = text T w out
  | .writing w i pos rest => ∃ old out, d.file (tmpFor pid w) = some (i, old) ∧ old.length = pos ∧ T.prints w out false ∧ old ++ rest = text T w out
  | .moving w => ∃ i out, d.file (tmpFor pid w) = some (i, text T w out) ∧ T.prints w out false
  | .stopped => True

/-- It depends on the temporary file only. -/
theorem PhaseOk.frame {T : Tool} {pid : Nat} {d d' : Dir} {ph : Phase} (h : PhaseOk T pid d ph)
    (hf : ∀ w, held ph = some w → d'.file (tmpFor pid w) = d.file (tmpFor pid w)) : PhaseOk T pid d' ph := by
  cases ph with
  | idle => trivial
  | start w => trivial
  | running w i pos rest intr => simp only [PhaseOk]; rw [hf w rfl]; exact h
  | reading w => simp only [PhaseOk]; rw [hf w rfl]; exact h
  | opening w t => exact h
  | writing w i pos rest => simp only [PhaseOk]; rw [hf w rfl]; exact h
  | moving w => simp only [PhaseOk]; rw [hf w rfl]; exact h
  | stopped => trivial

theorem child_ok {T : Tool} {pid : Nat} {d d' : Dir} {ph ph' : Phase} (h : Child T pid d ph d' ph') (hd : Sound d) (hok : PhaseOk T pid d ph) :
    Sound d' ∧ PhaseOk T pid d' ph' ∧ held ph' = held ph ∧ ∃ w, held ph = some w ∧ ∀ q, q ≠ tmpFor pid w → d'.file q = d.file q := by
  cases h with
  | @start w out intr hp =>
    obtain ⟨h1, h2, h3⟩ := Dir.openTrunc_spec hd (tmpFor pid w)
    exact ⟨h1, ⟨[], h2, rfl, hp⟩, rfl, w, rfl, h3⟩
  | @write w i pos now later intr hn =>
    obtain ⟨old, ho, rfl, hp⟩ := hok
    obtain ⟨h1, h2, h3⟩ := Dir.write_spec hd ho now
    exact ⟨h1, ⟨old ++ now, h2, by simp, by rw [List.append_assoc]; exact hp⟩, rfl, w, rfl, h3⟩

theorem main_ok {T : Tool} {pid : Nat} {d d' : Dir} {q q' : List Item} {ph ph' : Phase} {ok : Bool}
    (h : Main T pid d q ph d' q' ph' ok) (hd : Sound d) (hok : PhaseOk T pid d ph) :
    Sound d' ∧ PhaseOk T pid d' ph' ∧ ok = true ∧
      (∀ p, (∀ w, held ph = some w → p ≠ tmpFor pid w) → (∀ w, ph = .moving w → p ≠ pathFor w) → d'.file p = d.file p) ∧
      ((∃ w, q = w :: q' ∧ held ph = none ∧ held ph' = some w) ∨
       (q = q' ∧ held ph' = held ph ∧ (ph' = .stopped → q' = []) ∧ ∀ v, ph ≠ .moving v) ∨
       (q = q' ∧ held ph' = none ∧ ∃ w, held ph = some w ∧ d'.file (tmpFor pid w) = none ∧
          ((∃ out, T.prints w out false ∧ d'.read (pathFor w) = some (text T w out) ∧ ph' = .idle ∧ ph = .moving w) ∨
           ((∃ out, T.prints w out true) ∧ ∀ v, ph ≠ .moving v)))) := by
  cases h with
  | @take w q => exact ⟨hd, trivial, rfl, fun _ _ _ => rfl, Or.inl ⟨w, rfl, rfl, rfl⟩⟩
  | @done => exact ⟨hd, trivial, rfl, fun _ _ _ => rfl, Or.inr (Or.inl ⟨rfl, rfl, fun _ => rfl, fun _ h => by cases h⟩)⟩
  | @returned q w i pos =>
    obtain ⟨old, ho, rfl, hp⟩ := hok
    rw [List.append_nil] at hp
    exact ⟨hd, ⟨i, old, ho, hp⟩, rfl, fun _ _ _ => rfl, Or.inr (Or.inl ⟨rfl, rfl, (fun h => by cases h), fun _ h => by cases h⟩)⟩
  | @interrupted q w i pos =>
    obtain ⟨old, ho, rfl, hp⟩ := hok
    rw [List.append_nil] at hp
    obtain ⟨h1, h2, h3⟩ := Dir.remove_spec hd (tmpFor pid w)
    exact ⟨h1, trivial, rfl, fun p h _ => h3 p (h w rfl),
      Or.inr (Or.inr ⟨rfl, rfl, w, rfl, h2, Or.inr ⟨⟨_, hp⟩, fun _ h => by cases h⟩⟩)⟩
  | @read q w =>
    obtain ⟨i, out, ho, hp⟩ := hok
    refine ⟨hd, ⟨out, hp, ?_⟩, rfl, fun _ _ _ => rfl, Or.inr (Or.inl ⟨rfl, rfl, (fun h => by cases h), fun _ h => by cases h⟩)⟩
    rw [Dir.read_eq, ho]
    rfl
  | @create q w t =>
    obtain ⟨out, hp, rfl⟩ := hok
    obtain ⟨h1, h2, h3⟩ := Dir.openTrunc_spec hd (tmpFor pid w)
    exact ⟨h1, ⟨[], out, h2, rfl, hp, rfl⟩, rfl, fun p h _ => h3 p (h w rfl), Or.inr (Or.inl ⟨rfl, rfl, (fun h => by cases h), fun _ h => by cases h⟩)⟩
  | @write q w i pos now later hn =>
    obtain ⟨old, out, ho, rfl, hp, ht⟩ := hok
    obtain ⟨h1, h2, h3⟩ := Dir.write_spec hd ho now
    exact ⟨h1, ⟨old ++ now, out, h2, by simp, hp, by rw [List.append_assoc]; exact ht⟩, rfl, fun p h _ => h3 p (h w rfl),
      Or.inr (Or.inl ⟨rfl, rfl, (fun h => by cases h), fun _ h => by cases h⟩)⟩
  | @close q w i pos =>
    obtain ⟨old, out, ho, rfl, hp, ht⟩ := hok
    rw [List.append_nil] at ht
    subst ht
    exact ⟨hd, ⟨i, out, ho, hp⟩, rfl, fun _ _ _ => rfl, Or.inr (Or.inl ⟨rfl, rfl, (fun h => by cases h), fun _ h => by cases h⟩)⟩
  | @rename q w d' hr =>
    obtain ⟨i, out, ho, hp⟩ := hok
    have hne : tmpFor pid w ≠ pathFor w := fun e => pathFor_not_tmp w (e ▸ tmpFor_isTmp pid w)
    obtain ⟨h1, ⟨x, h2, h3⟩, h4, h5⟩ := Dir.rename_spec hd hne hr
    rw [ho] at h2
    cases h2
    refine ⟨h1, trivial, rfl, fun p h h' => h5 p (h w rfl) (h' w rfl), Or.inr (Or.inr ⟨rfl, rfl, w, rfl, h4, Or.inl ⟨out, hp, ?_, rfl, rfl⟩⟩)⟩
    rw [Dir.read_eq, h3]
    rfl
  | @noRename q w hr =>
    obtain ⟨i, out, ho, hp⟩ := hok
    rw [Dir.rename_none hr] at ho
    cases ho

/-- Every item of a process is waiting, in work, or done with. -/
def Accounts (T : Tool) (d : Dir) (s0 : Sys) (p0 p : Proc) : Prop :=
  p.pid = p0.pid ∧ p.workers.length = p0.workers.length ∧
  (∃ fin, p0.queue.Perm (p.queue ++ p.workers.filterMap held ++ fin) ∧
    ∀ w ∈ fin, d.file (tmpFor p.pid w) = none ∧ ((∃ t, d.read (pathFor w) = some t ∧ Complete T s0 (pathFor w) t) ∨ ∃ out, T.prints w out true)) ∧
  (Phase.stopped ∈ p.workers → p.queue = [] ∨ ∃ w ∈ p0.queue, ∃ out, T.prints w out true)

/-- Invariant of an execution from `s0`. -/
structure Inv (T : Tool) (s0 s : Sys) : Prop where
  sound : Sound s.dir
  len : s.procs.length = s0.procs.length
  phases : ∀ (k : Nat) (p : Proc) (j : Nat) (ph : Phase), s.procs[k]? = some p → p.workers[j]? = some ph → PhaseOk T p.pid s.dir ph
  accounts : ∀ (k : Nat) (p p0 : Proc), s.procs[k]? = some p → s0.procs[k]? = some p0 → Accounts T s.dir s0 p0 p
  stored : ∀ name, (∀ p ∈ s0.procs, ∀ w ∈ p.queue, name ≠ tmpFor p.pid w) → s.dir.file name = s0.dir.file name ∨ ∃ t, s.dir.read name = some t ∧ Complete T s0 name t

theorem Inv.init {T : Tool} {s : Sys} (h : Starts s) : Inv T s s where
  sound := h.sound
  len := rfl
  phases := fun k p j ph hp hj => by
    rw [h.idle p (List.mem_of_getElem? hp) ph (List.mem_of_getElem? hj)]
    trivial
  accounts := fun k p p0 hp hp0 => by
    rw [hp] at hp0
    cases hp0
    have hi := h.idle p (List.mem_of_getElem? hp)
    refine ⟨rfl, rfl, ⟨[], ?_, by simp⟩, fun hs => ?_⟩
    · have : p.workers.filterMap held = [] := by
        rw [List.filterMap_eq_nil_iff]
        intro a ha
        rw [hi a ha]
        rfl
      rw [this]
      simp
    · cases hi _ hs
  stored := fun _ _ => Or.inl rfl

private theorem filterMap_set {α β : Type} (f : α → Option β) (l : List α) (j : Nat) (a b : α) (h : l[j]? = some a) :
    ((l.set j b).filterMap f ++ (f a).toList).Perm (l.filterMap f ++ (f b).toList) := by
  induction l generalizing j with
  | nil => simp at h
  | cons c l ih =>
    cases j with
    | zero =>
      simp only [List.getElem?_cons_zero, Option.some.injEq] at h
      subst h
      rw [List.set_cons_zero]
      have e : ∀ (x : α) (t : List α), (x :: t).filterMap f = (f x).toList ++ t.filterMap f := by
        intro x t
        rw [List.filterMap_cons]
        cases f x <;> rfl
      rw [e, e]
      have p1 : ((f b).toList ++ l.filterMap f ++ (f c).toList).Perm ((f c).toList ++ ((f b).toList ++ l.filterMap f)) := List.perm_append_comm
      refine p1.trans ?_
      rw [← List.append_assoc]
      refine (List.Perm.append_right _ List.perm_append_comm).trans ?_
      rw [List.append_assoc]
      refine List.perm_append_comm.trans ?_
      refine (List.Perm.append_right _ List.perm_append_comm).trans ?_
      exact List.Perm.append_right _ List.perm_append_comm
    | succ j =>
      rw [List.getElem?_cons_succ] at h
      rw [List.set_cons_succ, List.filterMap_cons, List.filterMap_cons]
      cases f c with
      | none => exact ih j h
      | some v => simpa using (ih j h)

theorem _root_.Verif.Spec.Tidy.Starts.pid_inj {s0 : Sys} (h0 : Starts s0) {k k' : Nat} {p p' : Proc} (hp : s0.procs[k]? = some p)
    (hp' : s0.procs[k']? = some p') (e : p.pid = p'.pid) : k = k' := by
  obtain ⟨hk, rfl⟩ := List.getElem?_eq_some_iff.1 hp
  obtain ⟨hk', rfl⟩ := List.getElem?_eq_some_iff.1 hp'
  have hn := h0.pids
  rw [List.nodup_iff_pairwise_ne, List.pairwise_iff_getElem] at hn
  rcases Nat.lt_trichotomy k k' with h | h | h
  · have := hn k k' (by simpa using hk) (by simpa using hk') h
    simp only [List.getElem_map] at this
    exact absurd e this
  · exact h
  · have := hn k' k (by simpa using hk') (by simpa using hk) h
    simp only [List.getElem_map] at this
    exact absurd e.symm this

theorem Inv.names_distinct {T : Tool} {s0 s : Sys} (h0 : Starts s0) (hi : Inv T s0 s) {k k' j j' : Nat} {p p' : Proc} {ph ph' : Phase} {w w' : Item}
    (hp : s.procs[k]? = some p) (hj : p.workers[j]? = some ph) (hw : held ph = some w)
    (hp' : s.procs[k']? = some p') (hj' : p'.workers[j']? = some ph') (hw' : held ph' = some w') (hne : ¬ (k' = k ∧ j' = j)) :
    tmpFor p'.pid w' ≠ tmpFor p.pid w := by
  intro e
  obtain ⟨e1, e2⟩ := tmpFor_inj e
  have hk : k < s0.procs.length := by rw [← hi.len]; exact (List.getElem?_eq_some_iff.1 hp).1
  have hk' : k' < s0.procs.length := by rw [← hi.len]; exact (List.getElem?_eq_some_iff.1 hp').1
  have a1 := hi.accounts k p _ hp (List.getElem?_eq_getElem hk)
  have a2 := hi.accounts k' p' _ hp' (List.getElem?_eq_getElem hk')
  have hkk : k' = k := h0.pid_inj (List.getElem?_eq_getElem hk') (List.getElem?_eq_getElem hk) (by rw [← a1.1, ← a2.1]; exact e1)
  subst hkk
  rw [hp] at hp'
  cases hp'
  have hjj : j' ≠ j := fun e => hne ⟨rfl, e⟩
  obtain ⟨fin, hperm, _⟩ := a1.2.2.1
  have hn := h0.names _ (List.getElem_mem hk')
  have hn2 := (hperm.map pathFor).nodup_iff.1 hn
  rw [List.map_append, List.map_append] at hn2
  have hn3 := (List.nodup_append.1 (List.nodup_append.1 hn2).1).2.1
  rw [List.nodup_iff_pairwise_ne, List.pairwise_map, List.pairwise_filterMap, List.pairwise_iff_getElem] at hn3
  obtain ⟨l1, g1⟩ := List.getElem?_eq_some_iff.1 hj
  obtain ⟨l2, g2⟩ := List.getElem?_eq_some_iff.1 hj'
  rcases Nat.lt_trichotomy j' j with h | h | h
  · exact hn3 j' j l2 l1 h w' (by rw [g2]; exact hw') w (by rw [g1]; exact hw) e2
  · exact hjj h
  · exact hn3 j j' l1 l2 h w (by rw [g1]; exact hw) w' (by rw [g2]; exact hw') e2.symm


theorem Inv.update {T : Tool} {s0 s : Sys} (h0 : Starts s0) (hi : Inv T s0 s) {k j : Nat} {p : Proc} {ph ph' : Phase} {d' : Dir} {q' : List Item} (a : Bool)
    (hp : s.procs[k]? = some p) (hj : p.workers[j]? = some ph) (hs : Sound d') (hok : PhaseOk T p.pid d' ph')
    (hframe : ∀ name, (∀ w, held ph = some w → name ≠ tmpFor p.pid w) → (∀ w, ph = .moving w → name ≠ pathFor w) → d'.file name = s.dir.file name)
    (hmove : ∀ w, ph = .moving w → ∃ out, T.prints w out false ∧ d'.read (pathFor w) = some (text T w out))
    (hacc : ∃ fin, (p.queue ++ (held ph).toList).Perm (q' ++ (held ph').toList ++ fin) ∧
      ∀ w ∈ fin, held ph = some w ∧ d'.file (tmpFor p.pid w) = none ∧ (ph = .moving w ∨ ∃ out, T.prints w out true))
    (hstop : ph' = .stopped → q' = [] ∨ ∃ w, held ph = some w ∧ ∃ out, T.prints w out true) (hq : p.queue = [] → q' = []) :
    Inv T s0 { dir := d', procs := s.procs.set k { p with queue := q', workers := p.workers.set j ph', alive := a } } := by
  have hk : k < s.procs.length := (List.getElem?_eq_some_iff.1 hp).1
  have hk0 : k < s0.procs.length := by rw [← hi.len]; exact hk
  have hp0 := List.getElem?_eq_getElem hk0
  have acc := hi.accounts k p _ hp hp0
  obtain ⟨e1, e2, ⟨fin, hperm, hfin⟩, e4⟩ := acc
  have hheld : ∀ w, held ph = some w → w ∈ s0.procs[k].queue := fun w hw => by
    refine hperm.mem_iff.2 (List.mem_append_left _ (List.mem_append_right _ ?_))
    exact List.mem_filterMap.2 ⟨ph, List.mem_of_getElem? hj, hw⟩
  have hmoved : ∀ w, ph = .moving w → ∃ t, d'.read (pathFor w) = some t ∧ Complete T s0 (pathFor w) t := fun w hw => by
    obtain ⟨out, h1, h2⟩ := hmove w hw
    exact ⟨_, h2, _, List.getElem_mem hk0, w, hheld w (by rw [hw]; rfl), rfl, out, h1, rfl⟩
  have hstored : ∀ name, (∀ p ∈ s0.procs, ∀ w ∈ p.queue, name ≠ tmpFor p.pid w) →
      d'.file name = s.dir.file name ∨ ∃ t, d'.read name = some t ∧ Complete T s0 name t := by
    intro name hn
    by_cases hm : ∃ w, ph = .moving w ∧ name = pathFor w
    · obtain ⟨w, h1, rfl⟩ := hm
      exact Or.inr (hmoved w h1)
    · exact Or.inl (hframe name (fun w hw e => hn _ (List.getElem_mem hk0) w (hheld w hw) (by rw [e, e1])) fun w h e => hm ⟨w, h, e⟩)
  have hkeep : ∀ name, ¬ IsTmp name → (∃ t, s.dir.read name = some t ∧ Complete T s0 name t) → ∃ t, d'.read name = some t ∧ Complete T s0 name t := by
    intro name hn ⟨t, h1, h2⟩
    rcases hstored name (fun p _ w _ e => hn (e ▸ tmpFor_isTmp _ _)) with h | h
    · exact ⟨t, by rw [Dir.read_eq, h, ← Dir.read_eq]; exact h1, h2⟩
    · exact h
  refine ⟨hs, by simp [hi.len], fun k' p' j' ph'' hp' hj' => ?_, fun k' p' p0 hp' hp0' => ?_, fun name hn => ?_⟩
  · simp only at hp'
    by_cases hkk : k' = k
    · subst hkk
      rw [List.getElem?_set_self hk] at hp'
      cases hp'
      simp only at hj' ⊢
      by_cases hjj : j' = j
      · subst hjj
        rw [List.getElem?_set_self (List.getElem?_eq_some_iff.1 hj).1] at hj'
        cases hj'
        exact hok
      · rw [List.getElem?_set_ne (Ne.symm hjj)] at hj'
        refine (hi.phases k' p j' ph'' hp hj').frame fun w' hw' => hframe _ (fun w hw => ?_) fun w hw e => pathFor_not_tmp w (e ▸ tmpFor_isTmp _ _)
        exact hi.names_distinct h0 hp hj hw hp hj' hw' fun e => hjj e.2
    · rw [List.getElem?_set_ne (Ne.symm hkk)] at hp'
      refine (hi.phases k' p' j' ph'' hp' hj').frame fun w' hw' => hframe _ (fun w hw => ?_) fun w hw e => pathFor_not_tmp w (e ▸ tmpFor_isTmp _ _)
      exact hi.names_distinct h0 hp hj hw hp' hj' hw' fun e => hkk e.1
  · simp only at hp'
    by_cases hkk : k' = k
    · subst hkk
      rw [List.getElem?_set_self hk] at hp'
      cases hp'
      rw [hp0] at hp0'
      cases hp0'
      refine ⟨e1, by simp [e2], ?_, fun hst => ?_⟩
      · obtain ⟨fin', hf1, hf2⟩ := hacc
        refine ⟨fin' ++ fin, ?_, fun w hw => ?_⟩
        · simp only
          have h1 := filterMap_set held p.workers j ph ph' hj
          have c1 := fun x => hperm.count_eq x
          have c2 := fun x => hf1.count_eq x
          have c3 := fun x => h1.count_eq x
          rw [List.perm_iff_count]
          intro x
          have c1 := c1 x
          have c2 := c2 x
          have c3 := c3 x
          simp only [List.count_append] at c1 c2 c3 ⊢
          omega
        · rcases List.mem_append.1 hw with hw | hw
          · obtain ⟨_, hg, hx⟩ := hf2 w hw
            refine ⟨hg, ?_⟩
            rcases hx with h | h
            · exact Or.inl (hmoved w h)
            · exact Or.inr h
          · obtain ⟨hg, hx⟩ := hfin w hw
            refine ⟨?_, ?_⟩
            · simp only
              rw [hframe _ (fun v hv e => ?_) fun v hv e => pathFor_not_tmp v (e ▸ tmpFor_isTmp _ _)]
              · exact hg
              · have hn := (hperm.map pathFor).nodup_iff.1 (h0.names _ (List.getElem_mem hk0))
                rw [List.map_append] at hn
                exact (List.nodup_append.1 hn).2.2 _ (List.mem_map.2 ⟨v, List.mem_append_right _ (List.mem_filterMap.2 ⟨ph, List.mem_of_getElem? hj, hv⟩), rfl⟩)
                  _ (List.mem_map.2 ⟨w, hw, rfl⟩) (tmpFor_inj e).2.symm
            · rcases hx with h | h
              · exact Or.inl (hkeep _ (pathFor_not_tmp w) h)
              · exact Or.inr h
      · simp only at hst ⊢
        rcases List.mem_or_eq_of_mem_set hst with h | h
        · rcases e4 h with h | h
          · exact Or.inl (hq h)
          · exact Or.inr h
        · rcases hstop h.symm with h | ⟨w, h1, h2⟩
          · exact Or.inl h
          · exact Or.inr ⟨w, hheld w h1, h2⟩
    · rw [List.getElem?_set_ne (Ne.symm hkk)] at hp'
      obtain ⟨f1, f2, ⟨fin', f3, f4⟩, f5⟩ := hi.accounts k' p' p0 hp' hp0'
      refine ⟨f1, f2, ⟨fin', f3, fun w hw => ?_⟩, f5⟩
      obtain ⟨hg, hx⟩ := f4 w hw
      refine ⟨?_, ?_⟩
      · simp only
        rw [hframe _ (fun v hv e => ?_) fun v hv e => pathFor_not_tmp v (e ▸ tmpFor_isTmp _ _)]
        · exact hg
        · have hpid := (tmpFor_inj e).1
          rw [f1, e1] at hpid
          exact hkk (h0.pid_inj hp0' hp0 hpid)
      rcases hx with h | h
      · exact Or.inl (hkeep _ (pathFor_not_tmp w) h)
      · exact Or.inr h
  · rcases hstored name hn with h | h
    · simp only
      rw [h]
      rcases hi.stored name hn with h' | ⟨t, h1, h2⟩
      · exact Or.inl h'
      · exact Or.inr ⟨t, by rw [Dir.read_eq, h, ← Dir.read_eq]; exact h1, h2⟩
    · exact Or.inr h

theorem Inv.step {T : Tool} {s0 s t : Sys} {e : Option (Nat × Item)} (h0 : Starts s0) (hi : Inv T s0 s) (hs : Step T e s t) : Inv T s0 t := by
  cases hs with
  | @child _ k p j ph d' ph' hp hj h =>
    obtain ⟨h1, h2, h3, w, h4, h5⟩ := child_ok h hi.sound (hi.phases k p j ph hp hj)
    have hm : ∀ v, ph ≠ .moving v := by rintro v rfl; cases h
    refine hi.update (a := p.alive) h0 hp hj h1 h2 (fun name hn _ => h5 name (hn w h4)) (fun v hv => absurd hv (hm v))
      ⟨[], by rw [h3]; simp, by simp⟩ (fun e => ?_) id
    rw [e] at h3
    rw [← h3] at h4
    cases h4
  | @main _ k p j ph d' q' ph' ok hp hj ha h =>
    obtain ⟨h1, h2, h3, h4, h5⟩ := main_ok h hi.sound (hi.phases k p j ph hp hj)
    refine hi.update (a := ok) h0 hp hj h1 h2 h4 ?_ ?_ ?_ ?_
    · rintro w rfl
      rcases h5 with ⟨_, _, h, _⟩ | ⟨_, _, _, h⟩ | ⟨_, _, v, hv, _, ⟨out, ho1, ho2, _, hv'⟩ | ⟨_, h⟩⟩
      · cases h
      · exact absurd rfl (h w)
      · cases hv'
        exact ⟨out, ho1, ho2⟩
      · exact absurd rfl (h w)
    · rcases h5 with ⟨w, h, h6, h7⟩ | ⟨h, h6, h7, _⟩ | ⟨h, h6, v, hv, hx⟩
      · exact ⟨[], by rw [h, h6, h7]; simpa using (List.perm_append_comm (l₁ := [w]) (l₂ := q')), by simp⟩
      · exact ⟨[], by rw [h, h6]; simp, by simp⟩
      · obtain ⟨hg, hx⟩ := hx
        refine ⟨[v], by rw [h, h6, hv]; simp, fun w hw => ?_⟩
        rw [List.mem_singleton] at hw
        subst hw
        refine ⟨hv, hg, ?_⟩
        rcases hx with ⟨_, _, _, _, h⟩ | ⟨h, _⟩
        · exact Or.inl h
        · exact Or.inr h
    · intro e
      rcases h5 with ⟨w, h, h6, h7⟩ | ⟨h, h6, h7, _⟩ | ⟨h, h6, v, hv, hx⟩
      · rw [e] at h7; cases h7
      · exact Or.inl (h7 e)
      · rcases hx with ⟨_, ⟨_, _, _, h, _⟩ | ⟨h, _⟩⟩
        · rw [e] at h; cases h
        · exact Or.inr ⟨v, hv, h⟩
    · intro e
      rcases h5 with ⟨w, h, h6, h7⟩ | ⟨h, h6, h7, _⟩ | ⟨h, h6, v, hv, hx⟩
      · rw [e] at h; cases h
      · rw [← h]; exact e
      · rw [← h]; exact e
  | @kill _ k p hp ha =>
    have hk : k < s.procs.length := (List.getElem?_eq_some_iff.1 hp).1
    refine ⟨hi.sound, by simp [hi.len], fun k' p' j' ph'' hp' hj' => ?_, fun k' p' p0 hp' hp0' => ?_, hi.stored⟩
    · simp only at hp'
      by_cases hkk : k' = k
      · subst hkk
        rw [List.getElem?_set_self hk] at hp'
        cases hp'
        exact hi.phases k' p j' ph'' hp hj'
      · rw [List.getElem?_set_ne (Ne.symm hkk)] at hp'
        exact hi.phases k' p' j' ph'' hp' hj'
    · simp only at hp'
      by_cases hkk : k' = k
      · subst hkk
        rw [List.getElem?_set_self hk] at hp'
        cases hp'
        exact hi.accounts k' p p0 hp hp0'
      · rw [List.getElem?_set_ne (Ne.symm hkk)] at hp'
        exact hi.accounts k' p' p0 hp' hp0'

theorem Inv.run {T : Tool} {s0 s : Sys} {l : List (Nat × Item)} (h0 : Starts s0) (hr : Run T s0 l s) : Inv T s0 s := by
  induction hr with
  | refl => exact .init h0
  | step _ hs ih => exact ih.step h0 hs

end Verif.Tidy
