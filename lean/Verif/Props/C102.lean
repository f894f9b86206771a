import Verif.Proofs.YamlMessages
import Verif.Props.C35_C40
/-! # C102: what is said about the part table -/
namespace Verif.Props
open Verif.Db Verif.Spec Verif.Text
open Verif.Fasm (lit)

/-- The parser with messages is the parser of C40. -/
theorem C102_same_parser (partsYaml devicesYaml : Bytes) :
    (parsePartsInfosM partsYaml devicesYaml).forget = parsePartsInfos partsYaml devicesYaml := parsePartsInfosM_forget _ _

theorem devicesM_ok (devicesYaml : Bytes) (devices : List (Bytes × YamlKind)) (hd : LinesOf devicesYaml (devices.map (·.1)))
    (hdl : ∀ l ∈ devices, YamlLine l.1 l.2) (hf : AllFine DeviceComplaint (entriesOf (devices.map (·.2)))) :
    ∃ f, parseMappingYAMLM devicesYaml fabricSinkM [] = .ok f ∧ ∀ d, f.lookup d = fabricOf (devices.map (·.2)) d := by
  have hfab : ∀ e ∈ entriesOf (devices.map (·.2)), e.1 ≠ [] → (propValue e.2 nameFabric).isSome := by
    intro e he hk
    cases h : propValue e.2 nameFabric with
    | none => exact absurd ⟨h, rfl⟩ (hf e he hk _)
    | some v => rfl
  obtain ⟨f, hf, hlook⟩ := (sinkAll_ok fabricSink (fun ps => propValue ps nameFabric) fabricSink_val
    (entriesOf (devices.map (·.2))) []).1 hfab
  refine ⟨f, ?_, ?_⟩
  · apply Said.forget_eq_ok.1
    rw [parseMappingYAMLM_forget]
    have e : (fun m k p => (fabricSinkM m k p).forget) = fabricSink := by
      funext m k p; exact fabricSinkM_forget m k p
    rw [e, parseMappingYAML_spec _ _ _ hd hdl]
    exact hf
  · intro d
    rw [hlook]
    unfold fabricOf entryOf
    by_cases h : d = [] <;> simp [h]

/-- The part table is rejected because of the first problem of devices.yaml or, if there is none, the first of parts.yaml, and the
message says what it is. -/
theorem C102_first_problem (partsYaml devicesYaml : Bytes) (pls dls : List Bytes) (hp : LinesOf partsYaml pls) (hd : LinesOf devicesYaml dls)
    (m : Bytes) :
    parsePartsInfosM partsYaml devicesYaml = .err m ↔
      YamlComplaint DeviceComplaint dls m ∨
      ∃ devices : List (Bytes × YamlKind), dls = devices.map (·.1) ∧ (∀ l ∈ devices, YamlLine l.1 l.2) ∧
        AllFine DeviceComplaint (entriesOf (devices.map (·.2))) ∧ YamlComplaint (PartComplaint (devices.map (·.2))) pls m := by
  unfold parsePartsInfosM
  rw [Said.bind_eq_err]
  constructor
  · rintro (h | ⟨f, hf, h⟩)
    · exact Or.inl ((parseMappingYAMLM_err fabricSinkM_judges _ dls hd _ _).1 h)
    · right
      -- devices.yaml has no problem
      have hno : ∀ m, ¬ YamlComplaint DeviceComplaint dls m := by
        intro m hm
        rw [(parseMappingYAMLM_err fabricSinkM_judges _ dls hd _ _).2 hm] at hf
        cases hf
      have hgood : ∃ ks : List (Bytes × YamlKind), dls = ks.map (·.1) ∧ ∀ l ∈ ks, YamlLine l.1 l.2 := by
        have hall : ∀ l ∈ dls, ¬ BadYamlLine l := by
          intro l hl hb
          have h1 := parseMappingYAML_bad _ fabricSink_cases _ _ hd l hl hb []
          have e : (fun m k p => (fabricSinkM m k p).forget) = fabricSink := by
            funext m k p; exact fabricSinkM_forget m k p
          rw [← e, ← parseMappingYAMLM_forget, hf] at h1
          cases h1
        clear hd hno
        induction dls with
        | nil => exact ⟨[], rfl, by simp⟩
        | cons x ls ih =>
          obtain ⟨ks, h1, h2⟩ := ih (fun l hl => hall l (List.mem_cons_of_mem _ hl))
          rcases yamlLine_total x with ⟨k, hk⟩ | hbad
          · refine ⟨(x, k) :: ks, by simp [h1], ?_⟩
            intro l hl
            rcases List.mem_cons.1 hl with rfl | hl
            · exact hk
            · exact h2 l hl
          · exact absurd hbad (hall x (by simp))
      obtain ⟨devices, rfl, hdl⟩ := hgood
      have hfine : AllFine DeviceComplaint (entriesOf (devices.map (·.2))) := by
        refine Classical.byContradiction fun hnf => ?_
        have : parseMappingYAML devicesYaml fabricSink [] = .err := by
          rw [parseMappingYAML_spec _ _ _ hd hdl]
          refine (sinkAll_ok fabricSink (fun ps => propValue ps nameFabric) fabricSink_val (entriesOf (devices.map (·.2))) []).2 ?_
          refine Classical.byContradiction fun hno => hnf ?_
          intro e he hk m hm
          exact hno ⟨e, he, hk, hm.1⟩
        have e : (fun m k p => (fabricSinkM m k p).forget) = fabricSink := by
          funext m k p; exact fabricSinkM_forget m k p
        rw [← e, ← parseMappingYAMLM_forget, hf] at this
        cases this
      obtain ⟨f', hf', hlook⟩ := devicesM_ok devicesYaml devices hd hdl hfine
      rw [hf] at hf'
      cases hf'
      exact ⟨devices, rfl, hdl, hfine, (parseMappingYAMLM_err (partSinkM_judges f _ hlook) _ pls hp _ _).1 h⟩
  · rintro (h | ⟨devices, rfl, hdl, hfine, h⟩)
    · exact Or.inl ((parseMappingYAMLM_err fabricSinkM_judges _ dls hd _ _).2 h)
    · right
      obtain ⟨f, hf, hlook⟩ := devicesM_ok devicesYaml devices hd hdl hfine
      exact ⟨f, hf, (parseMappingYAMLM_err (partSinkM_judges f _ hlook) _ pls hp _ _).2 h⟩

/-- A rejected table has a problem. -/
theorem C102_explained (partsYaml devicesYaml : Bytes) :
    parsePartsInfos partsYaml devicesYaml = .err ↔ ∃ m, parsePartsInfosM partsYaml devicesYaml = .err m := by
  rw [← C102_same_parser, Said.forget_eq_err]

/-- The part table has no other result than the table or the message about a problem. -/
theorem C102_total (partsYaml devicesYaml : Bytes) :
    (∃ t, parsePartsInfosM partsYaml devicesYaml = .ok t) ∨ ∃ m, parsePartsInfosM partsYaml devicesYaml = .err m := by
  have h : (∃ t, parsePartsInfos partsYaml devicesYaml = .ok t) ∨ parsePartsInfos partsYaml devicesYaml = .err := by
    unfold parsePartsInfos
    rcases parseMappingYAML_cases fabricSink fabricSink_cases devicesYaml [] with ⟨f, h⟩ | h
    · rw [h]
      exact parseMappingYAML_cases (partSink f) (partSink_cases f) partsYaml []
    · rw [h]; exact Or.inr rfl
  rcases h with ⟨t, h⟩ | h
  · exact Or.inl ⟨t, Said.forget_eq_ok.1 (by rw [C102_same_parser, h])⟩
  · exact Or.inr ((C102_explained _ _).1 h)

/-- Part `q` has no package; part `p` before it is complete. -/
example : parsePartsInfosM bytes!"p:\n device: d\n package: k\n speedgrade: '1'\nq:\n device: d\n" bytes!"\"d\":\n fabric: 'f'" =
    .err (lit "key \"package\" not found") := by decide +kernel

example : parsePartsInfosM bytes!"p:\n device: e\n package: k\n speedgrade: '1'\n" bytes!"\"d\":\n fabric: 'f'" =
    .err (lit "could not find fabric for device: \"e\"") := by decide +kernel

/-- The bad line at the margin is seen after the entry before it has been looked at. -/
example : parsePartsInfosM bytes!"p:\n device: d\nq\n" bytes!"\"d\":\n fabric: 'f'" = .err (lit "key \"package\" not found") := by
  decide +kernel

/-- The indented bad line is seen before the entry is complete. -/
example : parsePartsInfosM bytes!"p:\n device: d\n package\n" bytes!"\"d\":\n fabric: 'f'" =
    .err (lit "Nested key-value pair missing colon") := by decide +kernel

/-- A mapping file with a problem in the entry `d`. -/
example : YamlComplaint DeviceComplaint [bytes!"\"d\":", bytes!" fabric: 'f'", bytes!"\"d\":"] (ascii "parts yaml doesn't contain fabric") :=
  .entry [(bytes!"\"d\":", .key bytes!"d"), (bytes!" fabric: 'f'", .prop nameFabric bytes!"f"), (bytes!"\"d\":", .key bytes!"d")] []
    [(bytes!"d", [(nameFabric, bytes!"f")])] (bytes!"d", []) _ rfl
    (by
      intro l hl
      simp only [List.mem_cons, List.not_mem_nil, or_false] at hl
      rcases hl with rfl | rfl | rfl
      · exact exampleDevices.1
      · exact exampleDevices.2
      · exact exampleDevices.1)
    (Or.inl rfl) rfl
    (by
      intro e he _ m hm
      rw [List.mem_singleton.1 he] at hm
      exact absurd hm.1 (by decide))
    (by decide) ⟨rfl, rfl⟩

/-- Neither the line nor the part is named: two tables with different problems, one message. -/
theorem C102_no_place :
    parsePartsInfosM bytes!"p:\n package: k\n" [] = parsePartsInfosM bytes!"# parts\n\nq:\n package: k\n speedgrade: 1\n" [] ∧
    parsePartsInfosM bytes!"p:\n package: k\n" [] = .err (lit "key \"device\" not found") := by decide +kernel

end Verif.Props
