import Verif.Spec.Device
import Verif.Props.C18_C23
/-! # C63: the file programs a device -/
namespace Verif.Props
open Verif.Xc7 Verif.Xc7.Packet Verif.Spec

theorem device_nops (id : Word) (s : Device) (n : Nat) : (List.replicate n nop).foldl (Device.packet id) s = s := by
  induction n with
  | zero => rfl
  | succ n ih =>
    rw [List.replicate_succ, List.foldl_cons]
    have : Device.packet id s nop = s := by
      unfold Device.packet
      rw [if_pos (Or.inr (by decide))]
    rw [this, ih]

/-- The packets before and after the IDCODE check. -/
theorem prefix_split (id : Word) : packagePrefix id = (packagePrefix 0#32).take 11 ++ [wr regIDCODE id] ++ (packagePrefix 0#32).drop 12 := rfl

theorem device_wr (id : Word) (s : Device) (reg : BitVec 32) (w : Word) (hr : reg.toNat ≠ 2) :
    Device.packet id s (wr reg w) = if s.desynced = true then s else s.write id reg.toNat w := by
  unfold Device.packet
  by_cases h : s.desynced = true
  · rw [if_pos (Or.inl h), if_pos h]
  · rw [if_neg (by rintro (h' | h'); exact h h'; exact h' rfl), if_neg (show ¬ (wr reg w).address.toNat = 2 from hr), if_neg h]
    rfl

theorem device_nop (id : Word) (s : Device) : Device.packet id s nop = s := device_nops id s 1

theorem device_fdri (id : Word) (s : Device) : Device.packet id s ⟨kTYPE1, opWrite, regFDRI, []⟩ = s := by
  unfold Device.packet
  by_cases h : s.desynced = true
  · rw [if_pos (Or.inl h)]
  · rw [if_neg (by rintro (h' | h'); exact h h'; exact h' rfl),
      if_pos (show (⟨kTYPE1, opWrite, regFDRI, []⟩ : Packet).address.toNat = 2 from rfl)]

theorem device_before (id : Word) : ((packagePrefix 0#32).take 11).foldl (Device.packet id) {} = { cmd := 7, cor0 := 0x02003FE5 } := by
  rfl

theorem device_after (id : Word) (c e : Bool) : ((packagePrefix 0#32).drop 12).foldl (Device.packet id) { idChecked := c, idError := e, cmd := 7, cor0 := 0x02003FE5 } =
    { idChecked := c, idError := e, cmd := 1, ctl0 := 0x401, cor0 := 0x02003FE5 } := by
  rw [packagePrefix]
  simp only [List.drop_succ_cons, List.drop_zero, List.foldl_cons, List.foldl_nil, device_nop, device_fdri]
  repeat rw [device_wr _ _ _ _ (by decide)]
  simp [Device.write, Device.command]

theorem device_prefix (id w : Word) : (packagePrefix w).foldl (Device.packet id) {} =
    { idChecked := decide (w = id), idError := !decide (w = id), cmd := 1, ctl0 := 0x401, cor0 := 0x02003FE5 } := by
  rw [prefix_split, List.foldl_append, List.foldl_append, device_before, List.foldl_cons, List.foldl_nil, device_wr _ _ _ _ (by decide)]
  rw [if_neg (by decide)]
  rw [show ∀ s, Device.write id s regIDCODE.toNat w = if w = id then { s with idChecked := true } else { s with idError := true } from fun _ => rfl]
  by_cases h : w = id
  · rw [if_pos h, decide_eq_true h]; exact device_after id true false
  · rw [if_neg h, decide_eq_false h]; exact device_after id false true

theorem device_suffix (id : Word) (c e r : Bool) (l : List (Nat × List Word)) :
    packageSuffix.foldl (Device.packet id) { idChecked := c, idError := e, cmd := 1, ctl0 := 0x401, cor0 := 0x02003FE5, loaded := l, refused := r } =
    { idChecked := c, idError := e, cmd := 13, far := 0x3be0000, mask := 0x501, ctl0 := 0x501, cor0 := 0x02003FE5, loaded := l, refused := r,
      lastFrame := !l.isEmpty, started := !l.isEmpty, desynced := true } := by
  unfold packageSuffix
  rw [List.foldl_append, List.foldl_append, List.foldl_append, device_nops, device_nops]
  simp only [List.foldl_cons, List.foldl_nil, device_nop]
  repeat rw [device_wr _ _ _ _ (by decide)]
  simp [Device.write, Device.command]

theorem device_package (id w d : Word) (ds : List Word) : (configurationPackage (d :: ds) w).foldl (Device.packet id) {} =
    { idChecked := decide (w = id), idError := !decide (w = id), cmd := 13, far := 0x3be0000, mask := 0x501, ctl0 := 0x501,
      cor0 := 0x02003FE5, loaded := if w = id then [(0, d :: ds)] else [], refused := !decide (w = id),
      lastFrame := decide (w = id), started := decide (w = id), desynced := true } := by
  unfold configurationPackage
  rw [List.foldl_append, List.foldl_append, device_prefix, List.foldl_cons, List.foldl_nil]
  by_cases h : w = id
  · rw [if_pos h, decide_eq_true h]; exact device_suffix id true false false [(0, d :: ds)]
  · rw [if_neg h, decide_eq_false h]; exact device_suffix id false true true []

theorem emitted_wire (ps : List Packet) (h : ∀ p ∈ ps, Representable p) : emitted ps = wireWords ps := by
  unfold emitted wireWords
  induction ps with
  | nil => rfl
  | cons x xs ih =>
    rw [List.flatMap_cons, List.flatMap_cons, ih fun p hp => h p (List.mem_cons_of_mem _ hp)]
    congr 2
    apply BitVec.eq_of_toNat_eq
    have := C09_header_layout x (h x List.mem_cons_self)
    rw [BitVec.toNat_ofNat, this, Nat.mod_eq_of_lt (by rw [← this]; exact x.header.isLt)]

theorem packetStream_wire (ps : List Packet) (h : ∀ p ∈ ps, Representable p) (hc : Chained none ps) :
    packetStream (wireWords ps) = ps := by
  have h1 := C09_stream_round_trip ps h hc ((wireWords ps).length + 2) (by omega)
  have h2 := (C11_reader_terminates_slices (wireWords ps) ((wireWords ps).length + 2) (by omega)).1
  rw [h1] at h2
  exact (Outcome.ok.inj (Option.some.inj h2)).symm

theorem packagePrefix_wire_length (w : Word) : ((packagePrefix w).flatMap fun p => BitVec.ofNat 32 (headerValue p) :: p.data).length = 45 := rfl
theorem packageSuffix_wire_length : (packageSuffix.flatMap fun p => BitVec.ofNat 32 (headerValue p) :: p.data).length = 524 := by
  decide +kernel

/-- The words of the programming sequence, run on a device with IDCODE `id`. -/
theorem C63_sequence (idcode d : Word) (ds : List Word) (h : (d :: ds).length < 2 ^ 27) (id : Word) :
    Device.run id (wireWords (configurationPackage (d :: ds) idcode)) =
      { idChecked := decide (idcode = id), idError := !decide (idcode = id), cmd := 13, far := 0x3be0000, mask := 0x501,
        ctl0 := 0x501, cor0 := 0x02003FE5, loaded := if idcode = id then [(0, d :: ds)] else [],
        refused := !decide (idcode = id), lastFrame := decide (idcode = id), started := decide (idcode = id),
        desynced := true } := by
  unfold Device.run
  rw [packetStream_wire _ (package_representable _ _ h) (package_chained _ _)]
  exact device_package id idcode d ds

/-- The words of the programming sequence, one by one: TIMER, WBSTAR, CMD NULL, CMD RCRC, register 0x13, COR0, COR1,
IDCODE, CMD SWITCH, MASK and CTL0, MASK and CTL1, FAR 0, CMD WCFG, FDRI with the frame data (type 2), CMD RCRC, CMD
GRESTORE, CMD LFRM, 100 NOPs, CMD START, FAR 0x3be0000, MASK and CTL0, CMD RCRC, CMD DESYNC, 400 NOPs. -/
theorem C63_words (idcode : Word) (data : List Word) : wireWords (configurationPackage data idcode) =
    [0x20000000#32, 0x30022001#32, 0#32, 0x30020001#32, 0#32, 0x30008001#32, 0#32, 0x20000000#32,
     0x30008001#32, 7#32, 0x20000000#32, 0x20000000#32, 0x30026001#32, 0#32, 0x30012001#32, 0x02003FE5#32,
     0x3001C001#32, 0#32, 0x30018001#32, idcode, 0x30008001#32, 9#32, 0x20000000#32, 0x3000C001#32, 0x401#32,
     0x3000A001#32, 0x501#32, 0x3000C001#32, 0#32, 0x30030001#32, 0#32] ++ List.replicate 8 0x20000000#32 ++
    [0x30002001#32, 0#32, 0x30008001#32, 1#32, 0x20000000#32, 0x30004000#32] ++
    [BitVec.ofNat 32 (0x50000000 + data.length)] ++ data ++
    [0x30008001#32, 7#32, 0x20000000#32, 0x20000000#32, 0x30008001#32, 10#32, 0x20000000#32, 0x30008001#32, 3#32] ++
    List.replicate 100 0x20000000#32 ++
    [0x30008001#32, 5#32, 0x20000000#32, 0x30002001#32, 0x03BE0000#32, 0x3000C001#32, 0x501#32, 0x3000A001#32, 0x501#32,
     0x30008001#32, 7#32, 0x20000000#32, 0x20000000#32, 0x30008001#32, 13#32] ++ List.replicate 400 0x20000000#32 := by
  have h4 : ∀ a b : List Packet, wireWords (a ++ b) = wireWords a ++ wireWords b := fun a b => List.flatMap_append
  have hn : ∀ n, wireWords (List.replicate n nop) = List.replicate n 0x20000000#32 := by
    intro n
    induction n with
    | zero => rfl
    | succ n ih => rw [List.replicate_succ, List.replicate_succ, ← ih]; rfl
  have h1 : wireWords (packagePrefix idcode) =
      [0x20000000#32, 0x30022001#32, 0#32, 0x30020001#32, 0#32, 0x30008001#32, 0#32, 0x20000000#32,
       0x30008001#32, 7#32, 0x20000000#32, 0x20000000#32, 0x30026001#32, 0#32, 0x30012001#32, 0x02003FE5#32,
       0x3001C001#32, 0#32, 0x30018001#32, idcode, 0x30008001#32, 9#32, 0x20000000#32, 0x3000C001#32, 0x401#32,
       0x3000A001#32, 0x501#32, 0x3000C001#32, 0#32, 0x30030001#32, 0#32] ++ List.replicate 8 0x20000000#32 ++
      [0x30002001#32, 0#32, 0x30008001#32, 1#32, 0x20000000#32, 0x30004000#32] := by
    have a1 : wireWords ((packagePrefix 0#32).take 11) =
        [0x20000000#32, 0x30022001#32, 0#32, 0x30020001#32, 0#32, 0x30008001#32, 0#32, 0x20000000#32,
         0x30008001#32, 7#32, 0x20000000#32, 0x20000000#32, 0x30026001#32, 0#32, 0x30012001#32, 0x02003FE5#32,
         0x3001C001#32, 0#32] := by decide +kernel
    have a2 : wireWords ((packagePrefix 0#32).drop 12) =
        [0x30008001#32, 9#32, 0x20000000#32, 0x3000C001#32, 0x401#32,
         0x3000A001#32, 0x501#32, 0x3000C001#32, 0#32, 0x30030001#32, 0#32] ++ List.replicate 8 0x20000000#32 ++
        [0x30002001#32, 0#32, 0x30008001#32, 1#32, 0x20000000#32, 0x30004000#32] := by decide +kernel
    have a3 : wireWords [wr regIDCODE idcode] = [0x30018001#32, idcode] := by
      rw [show wireWords [wr regIDCODE idcode] = [BitVec.ofNat 32 (headerValue (wr regIDCODE 0#32)), idcode] from rfl]
      rw [show BitVec.ofNat 32 (headerValue (wr regIDCODE 0#32)) = 0x30018001#32 by decide +kernel]
    rw [prefix_split, h4, h4, a1, a2, a3]
    rfl
  have h2 : wireWords packageSuffix =
      [0x30008001#32, 7#32, 0x20000000#32, 0x20000000#32, 0x30008001#32, 10#32, 0x20000000#32, 0x30008001#32, 3#32] ++
      List.replicate 100 0x20000000#32 ++
      [0x30008001#32, 5#32, 0x20000000#32, 0x30002001#32, 0x03BE0000#32, 0x3000C001#32, 0x501#32, 0x3000A001#32, 0x501#32,
       0x30008001#32, 7#32, 0x20000000#32, 0x20000000#32, 0x30008001#32, 13#32] ++ List.replicate 400 0x20000000#32 := by
    rw [packageSuffix, h4, h4, h4, hn, hn]
    generalize List.replicate 400 0x20000000#32 = r4
    generalize List.replicate 100 0x20000000#32 = r1
    rfl
  have h3 : wireWords [(⟨kTYPE2, opWrite, regFDRI, data⟩ : Packet)] = [BitVec.ofNat 32 (0x50000000 + data.length)] ++ data := by
    rw [show wireWords [(⟨kTYPE2, opWrite, regFDRI, data⟩ : Packet)] =
      BitVec.ofNat 32 (2 * 2 ^ 29 + 2 * 2 ^ 27 + data.length) :: (data ++ []) from rfl, List.append_nil]
    rfl
  rw [configurationPackage, h4, h4, h1, h2, h3]
  simp only [List.append_assoc]

/-- Before the sync word: dummy words around the bus width detection pattern. -/
theorem C63_bus_width (arch : Arch) : ∃ a b, 1 ≤ a ∧ 1 ≤ b ∧ syncHeader arch =
    List.replicate a 0xFFFFFFFF#32 ++ [0x000000BB#32, 0x11220044#32] ++ List.replicate b 0xFFFFFFFF#32 ++ [0xAA995566#32] := by
  cases arch
  · exact ⟨8, 2, by decide, by decide, by decide⟩
  · exact ⟨1, 2, by decide, by decide, by decide⟩
  · exact ⟨16, 2, by decide, by decide, by decide⟩

/-- `C63_file`, with the packets. -/
theorem encode_file (d : Db.Part) (hd : DescFits d) (p : Part) (hp : Part.fromPart d = .ok p)
    (hsmall : FitsPacket p) (partName source date time : Bytes) (seek : Bool)
    (hnames : ∀ s ∈ [partName, source, date, time], ShortAscii s)
    (frames : BMap (FrameWords 101)) (hs : frames.Sorted)
    (hk : ∀ k f, (k, f) ∈ frames → ∃ a, Reached p a ∧ a.toNat = k) :
    ∃ m, m.Sorted ∧ WalkFrom p 0#32 m ∧
      (∀ k f, m.get? k = some f ↔ (frames.get? k = some f ∨
          (frames.get? k = none ∧ f = Vector.replicate 101 0#32 ∧ ∃ a, Reached p a ∧ a.toNat = k))) ∧
      ∃ fuel0, ∀ fuel ≥ fuel0, ∃ o file words data,
        encode d partName source date time frames ⟨[], 0, seek, false⟩ fuel = some (.ok o) ∧
        readBitFile o.bytes = some file ∧
        file.design = source ++ bytes!";Generator=fpga-assembler\x00" ∧
        file.part = partName ++ [0] ∧ file.date = date ++ [0] ∧ file.time = time ++ [0] ∧
        file.config = fileBytes (List.replicate 8 0xFFFFFFFF#32 ++ [0x000000BB#32, 0x11220044#32] ++
          List.replicate 2 0xFFFFFFFF#32 ++ [0xAA995566#32] ++ words) ∧
        data.length = (m.length + 2 * rowEnds p m + 2) * 101 ∧
        (∀ i k f, m[i]? = some (k, f) → (data.drop (slot 101 p m i)).take 101 = f.toList) ∧
        (words = wireWords (configurationPackage data p.idcode) ∧ data.length < 2 ^ 27 ∧ data = type2Payload p m ∧
          ∀ out, encode d partName source date time frames out fuel =
            writeBitstream .xc7 (configurationPackage data p.idcode) partName source generatorName date time out fuel) ∧
        ∀ id, Device.run id words =
          if id = p.idcode then
            { idChecked := true, loaded := [(0, data)], lastFrame := true, started := true, desynced := true,
              cmd := 13, far := 0x3be0000, mask := 0x501, ctl0 := 0x501, cor0 := 0x02003FE5 }
          else
            { idError := true, refused := true, desynced := true,
              cmd := 13, far := 0x3be0000, mask := 0x501, ctl0 := 0x501, cor0 := 0x02003FE5 } := by
  have hfits := fits_fromPart d hd p hp
  obtain ⟨fuel1, m, hm, hmono⟩ := C08_fill_terminates p hfits (zeroFrame 101) frames
  obtain ⟨hsm, hget⟩ := C07_fill_exact p _ _ _ _ hs hm
  have hmk : ∀ k v, (k, v) ∈ m → ∃ a, Reached p a ∧ a.toNat = k := by
    intro k v hv
    rcases (hget k v).mp (BMap.get?_of_mem hsm hv) with h | ⟨_, _, h⟩
    · exact hk k v (BMap.mem_of_get? h)
    · exact h
  have hplen := type2Payload_length p m
  have hdata : (type2Payload p m).length < 2^27 := hsmall.payload (walk_of_completed p hfits _ _ _ _ hs hk hm).1
  have hconv : convertFrames [] frames = frames := convertFrames_id frames hs (by
    intro kf hkf
    obtain ⟨a, _, ha⟩ := hk kf.1 kf.2 hkf
    rw [← ha]; exact a.isLt)
  have hr := package_representable (type2Payload p m) p.idcode hdata
  refine ⟨m, hsm, (walk_of_completed p hfits _ _ _ _ hs hk hm).1, hget,
    fuel1 + (syncHeader .xc7 ++ emitted (configurationPackage (type2Payload p m) p.idcode)).length + 2, fun fuel hfuel => ?_⟩
  have hadd : addMissingFrames p (zeroFrame 101) fuel frames = some m := by
    have := hmono (fuel - fuel1)
    rwa [show fuel1 + (fuel - fuel1) = fuel by omega] at this
  have hrun : ∀ id, Device.run id (wireWords (configurationPackage (type2Payload p m) p.idcode)) =
      if id = p.idcode then
        { idChecked := true, loaded := [(0, type2Payload p m)], lastFrame := true, started := true, desynced := true,
          cmd := 13, far := 0x3be0000, mask := 0x501, ctl0 := 0x501, cor0 := 0x02003FE5 }
      else
        { idError := true, refused := true, desynced := true,
          cmd := 13, far := 0x3be0000, mask := 0x501, ctl0 := 0x501, cor0 := 0x02003FE5 } := by
    intro id
    cases hpl : type2Payload p m with
    | nil =>
      exfalso
      rw [hpl] at hplen
      have : 0 < (m.length + 2 * rowEnds p m + 2) * 101 := Nat.mul_pos (by omega) (by omega)
      rw [← hplen] at this
      exact Nat.lt_irrefl _ this
    | cons x xs =>
      rw [hpl] at hdata
      rw [C63_sequence _ _ _ hdata]
      by_cases h : id = p.idcode
      · rw [if_pos h, if_pos h.symm, decide_eq_true h.symm]; rfl
      · rw [if_neg h, if_neg (Ne.symm h), decide_eq_false (Ne.symm h)]; rfl
  have h1 : (source ++ (generatorInfix ++ generatorName)).length < 65535 := by
    have := (hnames source (by simp)).1
    simp only [List.length_append, generatorInfix, generatorName, List.length_cons, List.length_nil]; omega
  have h2 : partName.length < 65535 := by have := (hnames partName (by simp)).1; omega
  have h3 : date.length < 65535 := by have := (hnames date (by simp)).1; omega
  have h4 : time.length < 65535 := by have := (hnames time (by simp)).1; omega
  have hcfg : syncHeader .xc7 ++ emitted (configurationPackage (type2Payload p m) p.idcode) =
      List.replicate 8 0xFFFFFFFF#32 ++ [0x000000BB#32, 0x11220044#32] ++
          List.replicate 2 0xFFFFFFFF#32 ++ [0xAA995566#32] ++ wireWords (configurationPackage (type2Payload p m) p.idcode) := by
    rw [emitted_wire _ hr]; rfl
  have hfin : ∃ o file, writeBitstream .xc7 (configurationPackage (type2Payload p m) p.idcode) partName source generatorName
      date time ⟨[], 0, seek, false⟩ fuel = some (.ok o) ∧ readBitFile o.bytes = some file ∧
      file.design = source ++ (generatorInfix ++ generatorName) ++ [0] ∧
      file.part = partName ++ [0] ∧ file.date = date ++ [0] ∧ file.time = time ++ [0] ∧
      file.config = fileBytes (syncHeader .xc7 ++ emitted (configurationPackage (type2Payload p m) p.idcode)) := by
    cases seek with
    | true =>
      have hel : (emitted (configurationPackage (type2Payload p m) p.idcode)).length < 2 ^ 28 := by
        rw [emitted_wire _ hr]
        unfold configurationPackage
        simp only [wireWords, List.flatMap_append, List.length_append, List.flatMap_cons, List.flatMap_nil, List.length_cons,
          List.length_nil, packageSuffix_wire_length, packagePrefix_wire_length]
        omega
      obtain ⟨o, file, e1, e2, _, e4⟩ := C19_seekable_file .xc7 (configurationPackage (type2Payload p m) p.idcode) partName source
        generatorName date time ⟨[], 0, true, false⟩ fuel rfl rfl rfl
        (show (syncHeader .xc7 ++ emitted (configurationPackage (type2Payload p m) p.idcode)).length < fuel by omega)
        (by
          show 4 * (syncHeader .xc7 ++ emitted (configurationPackage (type2Payload p m) p.idcode)).length < 2 ^ 32
          rw [List.length_append, show (syncHeader .xc7).length = 13 from rfl]
          omega) h1 h2 h3 h4
      exact ⟨o, _, e1, by rw [e2]; exact e4, rfl, rfl, rfl, rfl, rfl⟩
    | false =>
      obtain ⟨o, file, e1, e2, _, e4⟩ := C19_pipe_length_zero .xc7 (configurationPackage (type2Payload p m) p.idcode) partName source
        generatorName date time ⟨[], 0, false, false⟩ fuel rfl rfl rfl
        (show (syncHeader .xc7 ++ emitted (configurationPackage (type2Payload p m) p.idcode)).length < fuel by omega)
        h1 h2 h3 h4
      exact ⟨o, _, e1, by rw [e2]; exact e4, rfl, rfl, rfl, rfl, rfl⟩
  obtain ⟨o, file, e1, e2, e3, e4, e5, e6, e7⟩ := hfin
  refine ⟨o, file, _, type2Payload p m, ?_, e2, ?_, e4, e5, e6, ?_, hplen, fun i k f h => payload_slot p m i k f h, ⟨rfl, hdata, rfl, fun out => encode_eq d p hp _ _ _ _ frames m out _ hconv hadd⟩, hrun⟩
  · rw [encode_eq d p hp _ _ _ _ frames m _ _ hconv hadd]
    exact e1
  · rw [e3, List.append_assoc]; rfl
  · rw [e7, hcfg]

/-- The file that encoding prints, for a part whose coordinates fit: a `.bit` file naming the design, part, date and
time; its configuration data are the bus width pattern, the sync word and a programming sequence.  A device with the
part's IDCODE checks it, loads one block of frame data from address 0, in which every frame — those given, zero frames
elsewhere — has its place on the walk over the part, runs the start-up sequence and leaves the configuration mode.
Every other device loads nothing and does not start. -/
theorem C63_file (d : Db.Part) (hd : DescFits d) (p : Part) (hp : Part.fromPart d = .ok p)
    (hsmall : FitsPacket p) (partName source date time : Bytes) (seek : Bool)
    (hnames : ∀ s ∈ [partName, source, date, time], ShortAscii s)
    (frames : BMap (FrameWords 101)) (hs : frames.Sorted)
    (hk : ∀ k f, (k, f) ∈ frames → ∃ a, Reached p a ∧ a.toNat = k) :
    ∃ m, m.Sorted ∧ WalkFrom p 0#32 m ∧
      (∀ k f, m.get? k = some f ↔ (frames.get? k = some f ∨
          (frames.get? k = none ∧ f = Vector.replicate 101 0#32 ∧ ∃ a, Reached p a ∧ a.toNat = k))) ∧
      ∃ fuel0, ∀ fuel ≥ fuel0, ∃ o file words data,
        encode d partName source date time frames ⟨[], 0, seek, false⟩ fuel = some (.ok o) ∧
        readBitFile o.bytes = some file ∧
        file.design = source ++ bytes!";Generator=fpga-assembler\x00" ∧
        file.part = partName ++ [0] ∧ file.date = date ++ [0] ∧ file.time = time ++ [0] ∧
        file.config = fileBytes (List.replicate 8 0xFFFFFFFF#32 ++ [0x000000BB#32, 0x11220044#32] ++
          List.replicate 2 0xFFFFFFFF#32 ++ [0xAA995566#32] ++ words) ∧
        data.length = (m.length + 2 * rowEnds p m + 2) * 101 ∧
        (∀ i k f, m[i]? = some (k, f) → (data.drop (slot 101 p m i)).take 101 = f.toList) ∧
        ∀ id, Device.run id words =
          if id = p.idcode then
            { idChecked := true, loaded := [(0, data)], lastFrame := true, started := true, desynced := true,
              cmd := 13, far := 0x3be0000, mask := 0x501, ctl0 := 0x501, cor0 := 0x02003FE5 }
          else
            { idError := true, refused := true, desynced := true,
              cmd := 13, far := 0x3be0000, mask := 0x501, ctl0 := 0x501, cor0 := 0x02003FE5 } := by
  obtain ⟨m, h1, h2, h3, fuel0, h⟩ := encode_file d hd p hp hsmall partName source date time seek hnames frames hs hk
  refine ⟨m, h1, h2, h3, fuel0, fun fuel hf => ?_⟩
  obtain ⟨o, file, words, data, e1, e2, e3, e4, e5, e6, e7, e8, e9, _, e10⟩ := h fuel hf
  exact ⟨o, file, words, data, e1, e2, e3, e4, e5, e6, e7, e8, e9, e10⟩

/-- Non-vacuity: the small device with one frame given, written to a pipe; all hypotheses hold. -/
example : ∃ p, Part.fromPart smallDesc = .ok p ∧ DescFits smallDesc ∧ FitsPacket p ∧
    (∀ s ∈ [bytes!"fasm", bytes!"fpga", bytes!"20", bytes!"12"], ShortAscii s) ∧
    BMap.Sorted [(129, Vector.replicate 101 5#32)] ∧ ∃ a, Reached p a ∧ a.toNat = 129 := by
  refine ⟨_, rfl, smallDesc_dense.fits, smallDesc_packet, by unfold ShortAscii; decide, by simp [BMap.Sorted], 129#32, ?_, rfl⟩
  exact reached_of_valid _ (fits_fromPart _ smallDesc_dense.fits _ rfl) (dense_fromPart _ smallDesc_dense _ rfl) _ (by decide) (by decide)

/-- A programming sequence with two words of frame data on a device with and without that IDCODE. -/
example : (Device.run 7#32 (wireWords (configurationPackage [1#32, 2#32] 7#32))).loaded = [(0, [1#32, 2#32])] ∧
    (Device.run 8#32 (wireWords (configurationPackage [1#32, 2#32] 7#32))).started = false := by
  rw [C63_sequence _ _ _ (by decide), C63_sequence _ _ _ (by decide)]
  exact ⟨rfl, by decide⟩

end Verif.Props
