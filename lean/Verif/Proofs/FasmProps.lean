import Verif.Proofs.FasmAnn
import Verif.Proofs.FasmSafe
/-! # From the line semantics to the statements about `parse` -/
namespace Verif.Fasm
open Verif.Spec

theorem noFinalTick_safe {content : Bytes} (h : NoFinalTick content) : SafeText content := by
  intro pre blanks hb e
  refine h pre blanks ?_ e
  intro c hc
  have := hb c hc
  simpa [isBlank] using this

/-! ## Warnings -/

theorem warn_eq (line : Nat) : ∀ (sevs : List Sev) (st : St),
    st.warn line sevs =
      { st with result := st.result.max (worst sevs), diags := st.diags ++ sevs.map fun s => (line, s) } := by
  intro sevs
  induction sevs with
  | nil => intro st; cases st with | mk r t d => cases r <;> simp [St.warn, worst, Sev.max, Sev.rank]
  | cons s ss ih =>
    intro st
    have : st.warn line (s :: ss) = (st.report line s).warn line ss := rfl
    rw [this, ih]
    simp only [St.report, List.map_cons, List.append_assoc, List.singleton_append, max_assoc]
    have : s.max (worst ss) = worst (s :: ss) := by
      rw [show s :: ss = [s] ++ ss from rfl, worst_append, worst_single]
    rw [this]

theorem success_max (s : Sev) : Sev.max .success s = s := by cases s <;> rfl

/-! ## One narrow feature -/

theorem parse_narrow (ann : Bool) (cb : List Event → Bool) (g : Nat → Bytes)
    (hg : ∀ i, Blank (g i)) (f : FeatureText) (hf : f.WellFormed) (e : Bytes) (he : Stop e)
    (width : Nat) (hwidth : width = if clamps f then 64 else f.range.width)
    (hw : width ≤ 64) (hd : f.value.digitBits ≤ 64) (st : St) (line : Nat) :
    lineP ann cb st line (f.text g ++ e) =
      .ok (tailP ann
        { result := (st.result.max (worst (f.warnings ++ if clamps f then [.error] else []))).max
            (if cb (st.trace ++ [.feature line f.name (f.range.lo : Int) (width : Int) (f.value.val % 2 ^ width)])
              then .success else .userAbort),
          trace := st.trace ++ [.feature line f.name (f.range.lo : Int) (width : Int) (f.value.val % 2 ^ width)],
          diags := st.diags ++ (f.warnings ++ if clamps f then [Sev.error] else []).map fun s => (line, s) }
        line f.name e) := by
  obtain ⟨cs, hcs, hl⟩ := lineP_wf ann cb st line g hg f hf e he
  obtain ⟨c, rfl, rfl⟩ := hcs.narrow hd
  have hb := range_bounds f.range hf.2.2.1
  rw [hl, ← hwidth]
  have hmod : f.value.val % 2 ^ 64 % 2 ^ width = f.value.val % 2 ^ width :=
    Nat.mod_mod_of_dvd _ (Nat.pow_dvd_pow 2 hw)
  rw [show [f.value.val % 2 ^ 64].length = 1 from rfl,
    reportChunks_one cb line f.name f.range.lo width _ hb.1 (by rw [hwidth]; split <;> omega) hw,
    hmod, warn_eq]
  simp only [Res.bind]
  congr 2
  split <;> simp [Sev.max, Sev.rank] 

theorem parse_wide (ann : Bool) (cb : List Event → Bool) (hcb : ∀ tr, cb tr = true) (g : Nat → Bytes)
    (hg : ∀ i, Blank (g i)) (f : FeatureText) (hf : f.WellFormed) (e : Bytes) (he : Stop e)
    (hpos : 0 < f.value.digitBits)
    (hfit : (f.value.digitBits + 63) / 64 = (f.range.width + 63) / 64) (st : St) (line : Nat) :
    lineP ann cb st line (f.text g ++ e) =
      .ok (tailP ann
        { result := st.result.max (worst f.warnings),
          trace := st.trace ++ wideEvents line f.name f.range.lo f.range.width
            (misread f.value.digitBits f.value.val),
          diags := st.diags ++ f.warnings.map fun s => (line, s) }
        line f.name e) := by
  obtain ⟨cs, hcs, hl⟩ := lineP_wf ann cb st line g hg f hf e he
  have hc : clamps f = false := by
    unfold clamps
    obtain ⟨n, r, v⟩ := f
    cases v with
    | absent => simp [ValueText.digitBits] at hpos
    | plain d => simp [ValueText.digitBits] at hpos
    | based w b d => cases b <;> simp [ValueText.digitBits, Base.digitBits] at hpos ⊢
  have hb := range_bounds f.range hf.2.2.1
  have hinv := hcs.wide hpos
  rw [hl, hc]
  simp only [Bool.false_eq_true, if_false, List.append_nil]
  rw [reportChunks_all cb hcb line f.name f.range.lo f.range.width cs.length (misread f.value.digitBits f.value.val)
    hb.1 hb.2.2 (by rw [hinv.len]; omega) (by rw [hinv.len]; omega) cs 0 _ (by omega) hinv.bound ?_, warn_eq]
  · simp only [Res.bind]
    congr 2
    have : ∀ n i, chunkEvents line f.name f.range.lo f.range.width (misread f.value.digitBits f.value.val) i n =
        (List.range n).map fun j => .feature line f.name ((f.range.lo + 64 * (i + j) : Nat) : Int)
          ((min 64 (f.range.width - 64 * (i + j)) : Nat) : Int)
          (misread f.value.digitBits f.value.val / 2 ^ (64 * (i + j)) % 2 ^ min 64 (f.range.width - 64 * (i + j))) := by
      intro n
      induction n with
      | zero => intro i; rfl
      | succ n ih =>
        intro i
        rw [chunkEvents, ih, List.range_succ_eq_map, List.map_cons, List.map_map]
        simp only [Nat.add_zero, chunkWidth]
        congr 1
        refine List.map_congr_left fun j _ => ?_
        simp only [Function.comp_apply, show i + 1 + j = i + (j + 1) by omega]
    rw [this, hinv.len, hfit]
    simp only [Nat.zero_add, wideEvents]
  · cases hcs' : cs with
    | nil => rw [hcs'] at hinv; have := hinv.len; simp at this; omega
    | cons c cs =>
      rw [hcs'] at hinv
      have h1 := hinv.low
      have h2 := hinv.high
      simp only [List.headD_cons, List.tail_cons] at h1 h2
      rw [chunksVal, h1, h2]
      simp only [Nat.mul_zero, Nat.pow_zero, Nat.div_one]
      rfl

theorem parse_unfit (ann : Bool) (cb : List Event → Bool) (hcb : ∀ tr, cb tr = true) (g : Nat → Bytes)
    (hg : ∀ i, Blank (g i)) (f : FeatureText) (hf : f.WellFormed) (e : Bytes) (he : Stop e)
    (hpos : 0 < f.value.digitBits) (hlen : f.value.digitBits < 2 ^ 30)
    (hfit : (f.value.digitBits + 63) / 64 ≠ (f.range.width + 63) / 64) (st : St) (line : Nat) :
    lineP ann cb st line (f.text g ++ e) = .shift := by
  obtain ⟨cs, hcs, hl⟩ := lineP_wf ann cb st line g hg f hf e he
  have hc : clamps f = false := by
    unfold clamps
    obtain ⟨n, r, v⟩ := f
    cases v with
    | absent => simp [ValueText.digitBits] at hpos
    | plain d => simp [ValueText.digitBits] at hpos
    | based w b d => cases b <;> simp [ValueText.digitBits, Base.digitBits] at hpos ⊢
  have hb := range_bounds f.range hf.2.2.1
  have hinv := hcs.wide hpos
  rw [hl, hc]
  simp only [Bool.false_eq_true, if_false, List.append_nil]
  have hl := hinv.len
  rw [reportChunks_shift cb hcb line f.name f.range.lo f.range.width cs.length hb.2.2 (by omega) (by omega)
    cs 0 _ (by rintro rfl; simp at hl; omega) (by omega)]
  rfl

theorem parse_absent_wide (ann : Bool) (cb : List Event → Bool) (hcb : ∀ tr, cb tr = true) (g : Nat → Bytes)
    (hg : ∀ i, Blank (g i)) (f : FeatureText) (hf : f.WellFormed) (e : Bytes) (he : Stop e)
    (hv : f.value = .absent) (hw : 64 < f.range.width) (st : St) (line : Nat) :
    lineP ann cb st line (f.text g ++ e) = .shift := by
  obtain ⟨cs, hcs, hl⟩ := lineP_wf ann cb st line g hg f hf e he
  have hc : clamps f = false := by unfold clamps; rw [hv]; simp
  obtain ⟨c, rfl, _⟩ := hcs.narrow (by rw [hv]; simp [ValueText.digitBits])
  have hb := range_bounds f.range hf.2.2.1
  rw [hl, hc]
  simp only [Bool.false_eq_true, if_false, List.append_nil]
  rw [show [c].length = 1 from rfl,
    reportChunks_shift cb hcb line f.name f.range.lo f.range.width 1 hb.2.2 (by omega) (by omega)
    [c] 0 _ (by simp) (by simp)]
  rfl

theorem clamps_narrow (f : FeatureText) (h : f.range.width ≤ 64) : clamps f = false := by
  unfold clamps
  rw [show decide (f.range.width > 64) = false from decide_eq_false (by omega)]; rfl

theorem clamps_integer (f : FeatureText) (h : 64 < f.range.width) (hi : f.value.IsInteger) : clamps f = true := by
  unfold clamps
  rw [show decide (f.range.width > 64) = true from decide_eq_true h]
  cases hv : f.value with
  | absent => rw [hv] at hi; exact hi.elim
  | plain d => rfl
  | based w b d => rw [hv] at hi; rcases hi with rfl | rfl <;> rfl

theorem integer_digitBits (v : ValueText) (hi : v.IsInteger) : v.digitBits = 0 := by
  cases v with
  | absent => rfl
  | plain d => rfl
  | based w b d => rcases hi with rfl | rfl <;> simp [ValueText.digitBits, Base.digitBits]

/-! ## The delivered value -/

theorem delivered_chunks (line : Nat) (name : Bytes) (lo v : Nat) (w : Nat → Nat) : ∀ n i,
    deliveredValue lo ((List.range n).map fun j => .feature line name ((lo + 64 * (i + j) : Nat) : Int)
      ((w (i + j) : Nat) : Int) (v / 2 ^ (64 * (i + j)) % 2 ^ w (i + j))) =
    ((List.range n).map fun j => v / 2 ^ (64 * (i + j)) % 2 ^ w (i + j) * 2 ^ (64 * (i + j))).sum := by
  intro n
  induction n with
  | zero => intro i; rfl
  | succ n ih =>
    intro i
    rw [List.range_succ_eq_map, List.map_cons, List.map_map, List.map_cons, List.map_map, List.sum_cons]
    rw [deliveredValue]
    have h1 : (((lo + 64 * (i + 0) : Nat) : Int) - (lo : Int)).toNat = 64 * (i + 0) := by omega
    rw [h1]
    congr 1
    have := ih (i + 1)
    have e : ∀ j, i + 1 + j = i + (j + 1) := by intro j; omega
    simp only [e] at this
    exact this

theorem mod_split (v a b : Nat) : v % 2 ^ (a + b) = v % 2 ^ a + 2 ^ a * (v / 2 ^ a % 2 ^ b) := by
  rw [Nat.pow_add, Nat.mod_mul]

theorem delivered_wide (line : Nat) (name : Bytes) (lo width v : Nat) :
    deliveredValue lo (wideEvents line name lo width v) = v % 2 ^ width := by
  have h := delivered_chunks line name lo v (fun i => min 64 (width - 64 * i)) ((width + 63) / 64) 0
  simp only [Nat.zero_add] at h
  unfold wideEvents
  rw [h]
  have key : ∀ n, ((List.range n).map fun j => v / 2 ^ (64 * j) % 2 ^ min 64 (width - 64 * j) * 2 ^ (64 * j)).sum =
      v % 2 ^ min width (64 * n) := by
    intro n
    induction n with
    | zero => simp [Nat.mod_one]
    | succ n ih =>
      rw [List.range_succ, List.map_append, List.sum_append, ih]
      simp only [List.map_cons, List.map_nil, List.sum_cons, List.sum_nil, Nat.add_zero]
      by_cases h : 64 * n ≤ width
      · have e1 : min width (64 * n) = 64 * n := by omega
        have e2 : min width (64 * (n + 1)) = 64 * n + min 64 (width - 64 * n) := by omega
        rw [e1, e2, mod_split, Nat.mul_comm (2 ^ (64 * n))]
      · have e1 : min width (64 * n) = width := by omega
        have e2 : min width (64 * (n + 1)) = width := by omega
        have e3 : min 64 (width - 64 * n) = 0 := by omega
        rw [e1, e2, e3]; simp [Nat.mod_one]
  rw [key, show min width (64 * ((width + 63) / 64)) = width by omega]

theorem misread_aligned (n v : Nat) (h : n % 64 = 0) : misread n v = v := by
  unfold misread
  simp only [h, if_true]
  rw [Nat.add_comm, Nat.div_add_mod]

theorem misread_short (n v : Nat) (h : n ≤ 64) (hv : v < 2 ^ n) : misread n v = v := by
  by_cases h0 : n % 64 = 0
  · exact misread_aligned n v h0
  · unfold misread
    have : n % 64 = n := by omega
    simp only [h0, if_false]
    rw [this]
    rw [Nat.mod_eq_of_lt hv, Nat.div_eq_of_lt hv]; rfl

/-! ## Line numbers -/

/-- `st` extends `st0` by events and diagnostics of line `line`. -/
def AtLine (line : Nat) (st0 st : St) : Prop :=
  ∃ tr ds, st.trace = st0.trace ++ tr ∧ (∀ e ∈ tr, eventLine e = line) ∧
    st.diags = st0.diags ++ ds ∧ ∀ d ∈ ds, d.1 = line

theorem AtLine.refl (line : Nat) (st : St) : AtLine line st st := ⟨[], [], by simp, by simp, by simp, by simp⟩

theorem AtLine.report {line : Nat} {st0 st : St} (h : AtLine line st0 st) (sev : Sev) :
    AtLine line st0 (st.report line sev) := by
  obtain ⟨tr, ds, h1, h2, h3, h4⟩ := h
  refine ⟨tr, ds ++ [(line, sev)], h1, h2, by simp [St.report, h3], ?_⟩
  intro d hd
  rcases List.mem_append.1 hd with hd | hd
  · exact h4 d hd
  · rw [List.mem_singleton.1 hd]

theorem AtLine.event {line : Nat} {st0 st : St} (h : AtLine line st0 st) (e : Event) (he : eventLine e = line) (r : Sev) :
    AtLine line st0 { st with trace := st.trace ++ [e], result := r } := by
  obtain ⟨tr, ds, h1, h2, h3, h4⟩ := h
  refine ⟨tr ++ [e], ds, by simp [h1], ?_, h3, h4⟩
  intro x hx
  rcases List.mem_append.1 hx with hx | hx
  · exact h2 x hx
  · rw [List.mem_singleton.1 hx]; exact he

theorem AtLine.reportIf {line : Nat} {st0 st : St} (h : AtLine line st0 st) (sev : Sev) (p : Prop) [Decidable p] :
    AtLine line st0 (if p then st.report line sev else st) := by
  split
  · exact h.report sev
  · exact h

theorem AtLine.clamp {line : Nat} {st0 st : St} (h : AtLine line st0 st) (w : Nat) (i : Bool) :
    AtLine line st0 (clampWidth st line w i).1 := by
  unfold clampWidth
  split
  · exact h.report _
  · exact h

theorem AtLine.value {line : Nat} {st0 st : St} (h : AtLine line st0 st) (f : UInt8) (s : Bytes) :
    AtLine line st0 (valueP st line f s).1 := by
  unfold valueP
  split
  · exact h
  · split
    · exact h
    · split
      · exact h
      · split
        · exact h
        · exact h.report _

theorem AtLine.assign {line : Nat} {st0 st : St} (h : AtLine line st0 st) (mx mn : Nat) (s : Bytes) :
    AtLine line st0 (assignP st line mx mn s).1 := by
  unfold assignP
  dsimp only
  split
  · split
    · unfold tickedP
      exact ((h.reportIf _ _).clamp _ _).value _ _
    · exact h.clamp _ _
  · exact h.reportIf _ _

theorem AtLine.chunks {line : Nat} (cb : List Event → Bool) (name : Bytes) (mn w total : Nat) {st0 : St} :
    ∀ (cs : List Nat) (i : Nat) (st st' : St), AtLine line st0 st →
      reportChunks cb line name mn w total i cs st = .ok st' → AtLine line st0 st' := by
  intro cs
  induction cs with
  | nil => intro i st st' h e; cases e; exact h
  | cons c cs ih =>
    intro i st st' h e
    unfold reportChunks at e
    dsimp only at e
    split at e
    · cases e
    · split at e
      · exact ih _ _ _ (h.event _ rfl st.result) e
      · cases e; exact h.event _ rfl _

theorem AtLine.ann {line : Nat} (feature : Bytes) {st0 : St} : ∀ (n : Nat) (st : St) (s : Bytes),
    AtLine line st0 st → AtLine line st0 (annP line feature n st s).1 := by
  intro n
  induction n with
  | zero => intro st s h; exact h
  | succ n ih =>
    intro st s h
    unfold annP
    dsimp only
    split
    · exact h.report _
    · split
      · exact h.report _
      · split
        · exact h.report _
        · split
          · exact ih _ _ (h.event _ rfl _)
          · exact h.event _ rfl _

theorem AtLine.tail {line : Nat} {st0 st : St} (h : AtLine line st0 st) (ann : Bool) (feature s : Bytes) :
    AtLine line st0 (tailP ann st line feature s) := by
  unfold tailP
  split
  · unfold annsP
    split
    · exact (AtLine.ann feature _ st s h).reportIf _ _
    · exact h
  · unfold endP
    split
    · exact h
    · exact h.reportIf _ _

theorem lineP_atLine (ann : Bool) (cb : List Event → Bool) (st st' : St) (line : Nat) (s : Bytes)
    (h : lineP ann cb st line s = .ok st') : AtLine line st st' := by
  have h0 := AtLine.refl line st
  unfold lineP at h
  dsimp only at h
  split at h
  · cases h; exact h0.tail _ _ _
  · split at h
    · cases h; exact h0.report _
    · cases h; exact h0.report _
    · rename_i mx mn _
      cases hr : reportChunks cb line _ mn _ _ 0 _ (assignP st line mx mn _).1 with
      | oob => rw [hr] at h; cases h
      | shift => rw [hr] at h; cases h
      | ok st1 =>
        rw [hr] at h
        simp only [Res.bind] at h
        cases h
        exact (AtLine.chunks cb _ _ _ _ _ 0 _ _ (h0.assign mx mn _) hr).tail _ _ _

theorem lines_snoc (ann : Bool) (cb : List Event → Bool) (ls : List Bytes) (l : Bytes) (hn : ls.length + 1 < 2 ^ 32) :
    linesP ann cb 0 {} (ls ++ [l]) =
      (linesP ann cb 0 {} ls).bind fun st => lineP ann cb st (ls.length + 1) l := by
  rw [linesP_append ann cb [l] ls 0 {} (by decide)]
  congr 1
  funext st
  rw [Nat.zero_add, Nat.mod_eq_of_lt (by omega), linesP, Nat.mod_eq_of_lt hn]
  cases lineP ann cb st (ls.length + 1) l <;> rfl

/-! ## Independence of line numbers -/

/-- States that agree up to line numbers. -/
def SameErased (a b : St) : Prop :=
  a.result = b.result ∧ a.trace.map eraseLine = b.trace.map eraseLine ∧
    a.diags.map Prod.snd = b.diags.map Prod.snd

def SameErasedRes : Res St → Res St → Prop
  | .ok a, .ok b => SameErased a b
  | .oob, .oob => True
  | .shift, .shift => True
  | _, _ => False

theorem erase_renumber (k : Nat) (tr : List Event) : (tr.map (renumber k)).map eraseLine = tr.map eraseLine := by
  rw [List.map_map]
  refine List.map_congr_left fun e _ => ?_
  cases e <;> rfl

theorem lineP_erased (ann : Bool) (cb : List Event → Bool)
    (hcb : ∀ tr tr' : List Event, tr.map eraseLine = tr'.map eraseLine → cb tr = cb tr')
    (a b : St) (k k' : Nat) (s : Bytes) (h : SameErased a b) :
    SameErasedRes (lineP ann cb a (k + 1) s) (lineP ann cb b (k' + 1) s) := by
  have e1 := lineP_combine ann cb k a {} 1 s
  have e2 := lineP_combine ann cb k' b {} 1 s
  rw [combine_empty, Nat.add_comm] at e1 e2
  rw [e1, e2]
  have hf : (fun tr : List Event => cb (a.trace ++ tr.map (renumber k))) =
      fun tr => cb (b.trace ++ tr.map (renumber k')) := by
    funext tr
    refine hcb _ _ ?_
    rw [List.map_append, List.map_append, erase_renumber, erase_renumber, h.2.1]
  rw [hf]
  cases lineP ann (fun tr => cb (b.trace ++ tr.map (renumber k'))) {} 1 s with
  | oob => trivial
  | shift => trivial
  | ok st =>
    obtain ⟨h1, h2, h3⟩ := h
    refine ⟨by simp [combine, h1], ?_, ?_⟩
    · simp only [combine, List.map_append, erase_renumber, h2]
    · simp only [combine, List.map_append, h3, List.map_map, Function.comp_def]

theorem linesP_erased (ann : Bool) (cb : List Event → Bool)
    (hcb : ∀ tr tr' : List Event, tr.map eraseLine = tr'.map eraseLine → cb tr = cb tr') :
    ∀ (ls : List Bytes) (k k' : Nat) (a b : St), k + ls.length < 2 ^ 32 → k' + ls.length < 2 ^ 32 → SameErased a b →
      SameErasedRes (linesP ann cb k a ls) (linesP ann cb k' b ls) := by
  intro ls
  induction ls with
  | nil => intro k k' a b _ _ h; exact h
  | cons l ls ih =>
    intro k k' a b hk hk' h
    rw [List.length_cons] at hk hk'
    unfold linesP
    rw [Nat.mod_eq_of_lt (by omega), Nat.mod_eq_of_lt (by omega)]
    have := lineP_erased ann cb hcb a b k k' l h
    revert this
    cases lineP ann cb a (k + 1) l <;> cases lineP ann cb b (k' + 1) l <;> intro this <;>
      simp only [SameErasedRes] at this <;> simp only [Res.bind]
    · exact ih _ _ _ _ (by omega) (by omega) this
    all_goals trivial

theorem blank_line (ann : Bool) (cb : List Event → Bool) (st : St) (line : Nat) (g e : Bytes) (hg : Blank g) (he : LineEnd e) :
    lineP ann cb st line (g ++ e) = .ok st := by
  have hs := LineEnd.stop he
  have h1 : (g ++ e).dropWhile isBlank = e := dropBlank g e hg hs.afterRange.1
  unfold lineP
  dsimp only
  rw [h1]
  have h2 := span_eq isIdent [] e (by simp) isIdent_nl hs.ident
  rw [List.nil_append] at h2
  rw [h2.1, h2.2]
  have h3 : e.dropWhile isBlank = e := dropBlank [] e (by intro c hc; cases hc) hs.afterRange.1
  rw [h3]
  simp only [List.isEmpty_nil, if_true]
  rw [LineEnd.tail he]

theorem blank_isLine (g e : Bytes) (hg : Blank g) (he : LineEnd e) : Line (g ++ e) := by
  refine ⟨noNl_append (blank_not_mem hg).1 he.1, strict_end ?_ he⟩
  intro pre blanks _ h
  exact (blank_not_mem hg).2 (by rw [h]; simp)

/-! ## One line at a time -/

theorem reportChunks_congr (cb cb' : List Event → Bool) (h : ∀ tr, tr ≠ [] → cb tr = cb' tr) (line : Nat) (name : Bytes)
    (mn w total : Nat) : ∀ (cs : List Nat) (i : Nat) (st : St),
    reportChunks cb line name mn w total i cs st = reportChunks cb' line name mn w total i cs st := by
  intro cs
  induction cs with
  | nil => intro i st; rfl
  | cons c cs ih =>
    intro i st
    unfold reportChunks
    dsimp only
    rw [h _ (by simp), ih]

theorem lineP_congr (ann : Bool) (cb cb' : List Event → Bool) (h : ∀ tr, tr ≠ [] → cb tr = cb' tr) (st : St) (line : Nat)
    (s : Bytes) : lineP ann cb st line s = lineP ann cb' st line s := by
  unfold lineP
  dsimp only
  split
  · rfl
  · split
    · rfl
    · rfl
    · rw [reportChunks_congr cb cb' h]

/-- A callback that looks only at the current call, and not at its line number. -/
theorem line_alone (ann : Bool) (q : Event → Bool) (hq : ∀ e, q (eraseLine e) = q e) (k : Nat) (a : St) (s : Bytes) :
    lineP ann (fun tr => tr.getLast?.all q) a (1 + k) s =
      (lineP ann (fun tr => tr.getLast?.all q) {} 1 s).map (combine k a) := by
  have e1 := lineP_combine ann (fun tr => tr.getLast?.all q) k a {} 1 s
  rw [combine_empty] at e1
  rw [e1]
  congr 1
  refine lineP_congr ann _ _ ?_ _ _ _
  intro tr hne
  obtain ⟨as, x, rfl⟩ : ∃ as x, tr = as ++ [x] := ⟨tr.dropLast, tr.getLast hne, (List.dropLast_concat_getLast hne).symm⟩
  have h1 : ∀ x, q (renumber k x) = q x := by
    intro x
    rw [← hq, ← hq x]
    cases x <;> rfl
  simp [List.getLast?_append, h1]

/-! ## After an abort -/

theorem chunks_abort (cb : List Event → Bool) (line : Nat) (name : Bytes) (mn w total : Nat) :
    ∀ (cs : List Nat) (i : Nat) (st st' : St), reportChunks cb line name mn w total i cs st = .ok st' →
      ∃ tr, st'.trace = st.trace ++ tr ∧ (∀ e ∈ tr, isFeature e = true) ∧
        ∀ pre post, tr = pre ++ post → pre ≠ [] → cb (st.trace ++ pre) = false → post = [] := by
  intro cs
  induction cs with
  | nil => intro i st st' e; cases e; exact ⟨[], by simp, by simp, by intro pre post h; simp at h; simp [h]⟩
  | cons c cs ih =>
    intro i st st' e
    unfold reportChunks at e
    dsimp only at e
    split at e
    · cases e
    · split at e
      · rename_i hcb
        obtain ⟨tr, h1, h2, h3⟩ := ih _ _ _ e
        refine ⟨_ :: tr, by rw [h1, List.append_assoc]; rfl, ?_, ?_⟩
        · intro x hx
          rcases List.mem_cons.1 hx with rfl | hx
          · rfl
          · exact h2 x hx
        · intro pre post hp hne hf
          cases pre with
          | nil => exact absurd rfl hne
          | cons p ps =>
            simp only [List.cons_append, List.cons.injEq] at hp
            obtain ⟨rfl, hp⟩ := hp
            by_cases hps : ps = []
            · subst hps; rw [hf] at hcb; cases hcb
            · exact h3 ps post hp hps (by simpa using hf)
      · rename_i hcb
        cases e
        refine ⟨[_], rfl, by intro x hx; rw [List.mem_singleton.1 hx]; rfl, ?_⟩
        intro pre post hp hne _
        cases pre with
        | nil => exact absurd rfl hne
        | cons p ps => simp only [List.cons_append, List.cons.injEq] at hp; have := hp.2; simp at this; exact this.2

theorem tail_anns (ann : Bool) (st : St) (line : Nat) (feature s : Bytes) :
    ∃ tr, (tailP ann st line feature s).trace = st.trace ++ tr ∧ ∀ e ∈ tr, isFeature e = false := by
  have hann : ∀ (n : Nat) (st : St) (s : Bytes), ∃ tr, (annP line feature n st s).1.trace = st.trace ++ tr ∧
      ∀ e ∈ tr, isFeature e = false := by
    intro n
    induction n with
    | zero => intro st s; exact ⟨[], by simp [annP], by simp⟩
    | succ n ih =>
      intro st s
      unfold annP
      dsimp only
      split
      · exact ⟨[], by simp [St.report], by simp⟩
      · split
        · exact ⟨[], by simp [St.report], by simp⟩
        · split
          · exact ⟨[], by simp [St.report], by simp⟩
          · split
            · obtain ⟨tr, h1, h2⟩ := ih { st with trace := st.trace ++ [.annotation line feature _ _] } _
              refine ⟨_ :: tr, by rw [h1, List.append_assoc]; rfl, ?_⟩
              intro x hx
              rcases List.mem_cons.1 hx with rfl | hx
              · rfl
              · exact h2 x hx
            · exact ⟨[_], rfl, by intro x hx; rw [List.mem_singleton.1 hx]; rfl⟩
  unfold tailP
  split
  · unfold annsP
    split
    · dsimp only
      obtain ⟨tr, h1, h2⟩ := hann (s.length + 1) st s
      refine ⟨tr, ?_, h2⟩
      rw [← h1]
      split <;> rfl
    · exact ⟨[], by simp, by simp⟩
  · unfold endP
    refine ⟨[], ?_, by simp⟩
    split
    · simp
    · split <;> simp [St.report]

/-- On one line, no feature call follows one answered `false`. -/
theorem lineP_abort (ann : Bool) (cb : List Event → Bool) (st' : St) (line : Nat) (s : Bytes)
    (h : lineP ann cb {} line s = .ok st') (pre post : List Event) (e : Event) (he : isFeature e = true)
    (ht : st'.trace = pre ++ e :: post) (hf : cb (pre ++ [e]) = false) : ∀ x ∈ post, isFeature x = false := by
  have key : ∀ (fs as : List Event), st'.trace = fs ++ as → (∀ x ∈ fs, isFeature x = true) → (∀ x ∈ as, isFeature x = false) →
      (∀ a b, fs = a ++ b → a ≠ [] → cb a = false → b = []) → ∀ x ∈ post, isFeature x = false := by
    intro fs as h1 h2 h3 h4
    rw [ht] at h1
    have h1' : pre ++ [e] ++ post = fs ++ as := by simpa using h1
    rw [List.append_eq_append_iff] at h1'
    rcases h1' with ⟨a', e1, e2⟩ | ⟨c', e1, e2⟩
    · have := h4 (pre ++ [e]) a' e1 (by simp) hf
      subst this
      simp only [List.nil_append] at e2
      rw [e2]; exact h3
    · -- `pre ++ [e]` reaches into the annotations: only possible when `c' = []`
      cases hc : c' with
      | nil => rw [hc] at e2; rw [List.nil_append] at e2; rw [← e2]; exact h3
      | cons z zs =>
        have hmem : e ∈ c' := by
          have h5 : (pre ++ [e]).getLast? = c'.getLast? := by
            rw [e1, List.getLast?_append, hc]; rfl
          rw [List.getLast?_append] at h5
          exact List.mem_of_getLast? h5.symm
        have := h3 e (by rw [e2]; exact List.mem_append_left _ hmem)
        rw [he] at this; cases this
  unfold lineP at h
  dsimp only at h
  split at h
  · cases h
    obtain ⟨tr, h1, h2⟩ := tail_anns ann {} line _ _
    exact key [] tr h1 (by simp) h2 (by intro a b hab hne; simp at hab; exact absurd hab.1 hne)
  · split at h
    · cases h; simp [St.report] at ht
    · cases h; simp [St.report] at ht
    · rename_i mx mn _
      cases hr : reportChunks cb line _ mn _ _ 0 _ (assignP {} line mx mn _).1 with
      | oob => rw [hr] at h; cases h
      | shift => rw [hr] at h; cases h
      | ok st1 =>
        rw [hr] at h
        simp only [Res.bind] at h
        obtain ⟨fs, h1, h2, h3⟩ := chunks_abort cb line _ mn _ _ _ 0 _ _ hr
        rw [assignP_trace] at h1 h3
        simp only [List.nil_append] at h1 h3
        cases h
        obtain ⟨tr, h4, h5⟩ := tail_anns ann st1 line _ _
        rw [h1] at h4
        exact key fs tr h4 h2 h5 h3

end Verif.Fasm
