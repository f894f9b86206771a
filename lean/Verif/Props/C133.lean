import Verif.Spec.Interrupted
import Verif.Props.C132
import Verif.Props.C74
/-! # C133: a device whose loading is interrupted -/
namespace Verif.Props
open Verif.Db Verif.Asm Verif.Spec Verif.Text Verif.Xc7 Verif.Xc7.Packet

/-! ## The packets of a cut word sequence -/

theorem header_field (p : Packet) (lo width : Nat) : field (BitVec.ofNat 32 (headerValue p)) lo width = headerValue p % 2 ^ 32 / 2 ^ lo % 2 ^ width := by
  unfold field
  rw [BitVec.toNat_ofNat]

/-- One packet of the wire, complete or cut. -/
theorem wire_step (p : Packet) (hr : Representable p) (prev : Option Packet) (hc : p.headerType.toNat = 2 → ∃ q, prev = some q ∧ q.address = p.address) (n : Nat) :
    (∀ tail, packetsOf (n + 1) prev (BitVec.ofNat 32 (headerValue p) :: (p.data ++ tail)) = p :: packetsOf n (some p) tail ∧
      openPacket (n + 1) prev (BitVec.ofNat 32 (headerValue p) :: (p.data ++ tail)) = openPacket n (some p) tail) ∧
    ∀ j, j < p.data.length → packetsOf (n + 1) prev (BitVec.ofNat 32 (headerValue p) :: p.data.take j) = [] ∧
      openPacket (n + 1) prev (BitVec.ofNat 32 (headerValue p) :: p.data.take j) = some { p with data := p.data.take j } := by
  obtain ⟨ht, op, ad, data⟩ := p
  have hv : ∀ (b : BitVec 32) (v : Nat), b.toNat = v → b = BitVec.ofNat 32 v := by
    rintro b v rfl; simp
  rcases hr with ⟨h1, h2, h3, h4⟩ | ⟨h1, h2, h3, h4⟩ | ⟨h1, h2, h4⟩
  · have e1 := hv _ _ h1
    have e2 := hv _ _ h2
    have e3 := hv _ _ h3
    simp only at e1 e2 e3 h4
    subst e1 e2 e3 h4
    refine ⟨fun tail => ⟨rfl, rfl⟩, fun j hj => absurd hj (Nat.not_lt_zero _)⟩
  · have e1 := hv _ _ h1
    simp only at e1 h2 h3 h4
    subst e1
    have g : headerValue ⟨1#32, op, ad, data⟩ = 1 * 2 ^ 29 + op.toNat * 2 ^ 27 + ad.toNat * 2 ^ 13 + data.length := rfl
    have f29 : field (BitVec.ofNat 32 (headerValue ⟨1#32, op, ad, data⟩)) 29 3 = 1 := by rw [header_field, g]; omega
    have f27 : field (BitVec.ofNat 32 (headerValue ⟨1#32, op, ad, data⟩)) 27 2 = op.toNat := by rw [header_field, g]; omega
    have f13 : field (BitVec.ofNat 32 (headerValue ⟨1#32, op, ad, data⟩)) 13 14 = ad.toNat := by rw [header_field, g]; omega
    have f0 : field (BitVec.ofNat 32 (headerValue ⟨1#32, op, ad, data⟩)) 0 11 = data.length := by rw [header_field, g]; omega
    refine ⟨fun tail => ?_, fun j hj => ?_⟩
    · have hl : ¬ (data ++ tail).length < data.length := by rw [List.length_append]; omega
      simp only [packetsOf, openPacket, f29, f27, f13, f0, if_neg hl, List.take_left, List.drop_left]
      simp
    · have hl : (data.take j).length < data.length := by rw [List.length_take]; exact Nat.lt_of_le_of_lt (Nat.min_le_left _ _) hj
      have ht : (data.take j).take data.length = data.take j := List.take_of_length_le (Nat.le_of_lt hl)
      simp only [packetsOf, openPacket, f29, f27, f13, f0, if_pos hl, ht]
      simp
  · have e1 := hv _ _ h1
    simp only at e1 h2 h4
    subst e1
    obtain ⟨q, rfl, hq⟩ := hc rfl
    simp only at hq
    have g : headerValue ⟨2#32, op, ad, data⟩ = 2 * 2 ^ 29 + op.toNat * 2 ^ 27 + data.length := rfl
    have f29 : field (BitVec.ofNat 32 (headerValue ⟨2#32, op, ad, data⟩)) 29 3 = 2 := by rw [header_field, g]; omega
    have f27 : field (BitVec.ofNat 32 (headerValue ⟨2#32, op, ad, data⟩)) 27 2 = op.toNat := by rw [header_field, g]; omega
    have f0 : field (BitVec.ofNat 32 (headerValue ⟨2#32, op, ad, data⟩)) 0 27 = data.length := by rw [header_field, g]; omega
    refine ⟨fun tail => ?_, fun j hj => ?_⟩
    · have hl : ¬ (data ++ tail).length < data.length := by rw [List.length_append]; omega
      simp only [packetsOf, openPacket, f29, f27, f0, if_neg hl, List.take_left, List.drop_left]
      simp [hq]
    · have hl : (data.take j).length < data.length := by rw [List.length_take]; exact Nat.lt_of_le_of_lt (Nat.min_le_left _ _) hj
      have ht : (data.take j).take data.length = data.take j := List.take_of_length_le (Nat.le_of_lt hl)
      simp only [packetsOf, openPacket, f29, f27, f0, if_pos hl, ht]
      simp [hq]

theorem wireWords_cons (p : Packet) (ps : List Packet) :
    wireWords (p :: ps) = BitVec.ofNat 32 (headerValue p) :: (p.data ++ wireWords ps) := rfl

/-- A cut is between packets or in one. -/
theorem wire_cut : ∀ (ps : List Packet) (prev : Option Packet) (k n : Nat), (∀ p ∈ ps, Representable p) → Chained prev ps →
    ((wireWords ps).take k).length ≤ n → ∃ i, i ≤ ps.length ∧ packetsOf n prev ((wireWords ps).take k) = ps.take i ∧
      ((openPacket n prev ((wireWords ps).take k) = none ∧ (wireWords ps).take k = wireWords (ps.take i)) ∨
       ∃ p j, ps[i]? = some p ∧ j < p.data.length ∧ openPacket n prev ((wireWords ps).take k) = some { p with data := p.data.take j } ∧
        (wireWords ps).take k = wireWords (ps.take i) ++ BitVec.ofNat 32 (headerValue p) :: p.data.take j) := by
  intro ps
  induction ps with
  | nil =>
    intro prev k n _ _ _
    refine ⟨0, Nat.le_refl _, ?_, Or.inl ⟨?_, by simp [wireWords]⟩⟩ <;> cases n <;> simp [wireWords, packetsOf, openPacket]
  | cons p ps ih =>
    intro prev k n hr hc hn
    cases k with
    | zero => exact ⟨0, Nat.zero_le _, by cases n <;> simp [packetsOf], Or.inl ⟨by cases n <;> simp [openPacket], by simp [wireWords]⟩⟩
    | succ k =>
      rw [wireWords_cons, List.take_succ_cons] at hn ⊢
      cases n with
      | zero => simp at hn
      | succ n =>
        have hs := wire_step p (hr p List.mem_cons_self) prev hc.1 n
        by_cases hk : k < p.data.length
        · rw [List.take_append_of_le_length (Nat.le_of_lt hk)]
          obtain ⟨a, b⟩ := hs.2 k hk
          exact ⟨0, Nat.zero_le _, a, Or.inr ⟨p, k, rfl, hk, b, rfl⟩⟩
        · have hk' : (p.data ++ wireWords ps).take k = p.data ++ (wireWords ps).take (k - p.data.length) := by
            rw [List.take_append, List.take_of_length_le (by omega)]
          rw [hk'] at hn ⊢
          obtain ⟨a, b⟩ := hs.1 ((wireWords ps).take (k - p.data.length))
          rw [a, b]
          obtain ⟨i, h1, h2, h3⟩ := ih (some p) (k - p.data.length) n (fun q hq => hr q (List.mem_cons_of_mem _ hq)) hc.2
            (by simp only [List.length_cons, List.length_append] at hn; omega)
          refine ⟨i + 1, Nat.succ_le_succ h1, by rw [h2]; rfl, ?_⟩
          rcases h3 with ⟨h4, h5⟩ | ⟨q, j, h4, h5, h6, h7⟩
          · exact Or.inl ⟨h4, by rw [h5]; rfl⟩
          · exact Or.inr ⟨q, j, h4, h5, h6, by rw [h7]; simp [wireWords]⟩

/-! ## What a device has taken in -/

theorem packet_noData (id : Word) (s : Device) (p : Packet) (h : NoData p) : (Device.packet id s p).loaded = s.loaded :=
  packets_noData id [p] (fun q hq => by rw [List.mem_singleton.1 hq]; exact h) s

theorem noData_cut {p : Packet} (h : NoData p) (j : Nat) : NoData { p with data := p.data.take j } := by
  intro h2
  have : p.data = [] := h h2
  show p.data.take j = []
  rw [this]; simp

theorem run_stream (id : Word) (ws : List Word) : Device.run id ws = (packetStream ws).foldl (Device.packet id) {} := rfl

/-- The programming sequence cut anywhere: a device with the IDCODE has the frame data that came, another has none; and it starts only with all of them. -/
theorem sofar_loaded (idcode d : Word) (ds : List Word) (h : (d :: ds).length < 2 ^ 27) (id : Word) (ws : List Word)
    (hws : ws <+: wireWords (configurationPackage (d :: ds) idcode)) :
    (Device.sofar id ws).loaded = (if idcode = id ∧ 46 < ws.length then [(0, (d :: ds).take (ws.length - 46))] else []) ∧
    ((Device.sofar id ws).started = true → idcode = id ∧ 46 + (d :: ds).length ≤ ws.length) := by
  have hcut := List.prefix_iff_eq_take.1 hws
  obtain ⟨i, h1, h2, h3⟩ := wire_cut (configurationPackage (d :: ds) idcode) none ws.length ws.length
    (package_representable _ _ h) (package_chained _ _) (by rw [← hcut]; exact Nat.le_refl _)
  rw [← hcut] at h2 h3
  have hA : (packagePrefix idcode).length = 30 := rfl
  have hlA : (wireWords (packagePrefix idcode)).length = 45 := packagePrefix_wire_length idcode
  have hpre : ∀ p ∈ packagePrefix idcode, NoData p := prefix_noData idcode
  have hrun : Device.run id ws = ((configurationPackage (d :: ds) idcode).take i).foldl (Device.packet id) {} := by
    rw [← h2]; rfl
  have hord : Orderly (Device.run id ws) := by
    rw [hrun]; exact packets_orderly id _ {} ⟨by decide, by decide⟩
  have hso : Orderly (Device.sofar id ws) := by
    unfold Device.sofar
    cases openPacket ws.length none ws with
    | none => exact hord
    | some q => exact packet_orderly id _ q hord
  have hpack : configurationPackage (d :: ds) idcode = packagePrefix idcode ++ ⟨kTYPE2, opWrite, regFDRI, d :: ds⟩ :: packageSuffix := by
    unfold configurationPackage; rw [List.append_assoc]; rfl
  generalize hpk : configurationPackage (d :: ds) idcode = pkg at h1 h2 h3 hrun hpack
  have hq : ∀ q, openPacket ws.length none ws = some q → NoData q → (Device.sofar id ws).loaded = (Device.run id ws).loaded := by
    intro q hq hn
    unfold Device.sofar
    rw [hq]
    exact packet_noData id _ q hn
  have hn : openPacket ws.length none ws = none → Device.sofar id ws = Device.run id ws := by
    intro hq
    unfold Device.sofar
    rw [hq]; rfl
  rcases Nat.lt_trichotomy i 30 with hi | hi | hi
  · -- before the frame data
    have ht : pkg.take i = (packagePrefix idcode).take i := by
      rw [hpack, List.take_append_of_le_length (by omega)]
    have hrl : (Device.run id ws).loaded = [] := by
      rw [hrun, ht, packets_noData id _ fun p hp => hpre p (List.mem_of_mem_take hp)]
    have hlen : ws.length ≤ 45 := by
      have hsub : ∀ j, (wireWords ((packagePrefix idcode).take j)).length ≤ 45 := by
        intro j
        have : wireWords (packagePrefix idcode) = wireWords ((packagePrefix idcode).take j) ++ wireWords ((packagePrefix idcode).drop j) := by
          unfold wireWords; rw [← List.flatMap_append, List.take_append_drop]
        rw [this, List.length_append] at hlA
        omega
      rcases h3 with ⟨_, h5⟩ | ⟨p, j, h4, h5, _, h7⟩
      · rw [h5, ht]; exact hsub i
      · have hp : (packagePrefix idcode)[i]? = some p := by
          rw [hpack, List.getElem?_append_left (by omega)] at h4; exact h4
        have := hsub (i + 1)
        rw [List.take_add_one, hp] at this
        rw [h7, ht]
        unfold wireWords at this ⊢
        rw [List.flatMap_append] at this
        simp only [Option.toList_some, List.flatMap_cons, List.flatMap_nil, List.append_nil, List.length_append, List.length_cons, List.length_take] at this ⊢
        omega
    have hl : (Device.sofar id ws).loaded = [] := by
      rcases h3 with ⟨h4, _⟩ | ⟨p, j, h4, _, h6, _⟩
      · rw [hn h4, hrl]
      · rw [hq _ h6 (noData_cut (hpre p ?_) j), hrl]
        rw [hpack, List.getElem?_append_left (by omega)] at h4
        exact List.mem_of_getElem? h4
    refine ⟨?_, fun hst => absurd hl (hso.2 (hso.1 hst))⟩
    rw [hl, if_neg (by omega)]
  · -- in the frame data
    subst hi
    have ht : pkg.take 30 = packagePrefix idcode := by
      rw [hpack, List.take_append_of_le_length (by omega), List.take_of_length_le (by omega)]
    rw [ht, device_prefix] at hrun
    rw [ht] at h3
    rcases h3 with ⟨h4, h5⟩ | ⟨p, j, h4, h5, h6, h7⟩
    · rw [hn h4, hrun, h5, hlA]
      refine ⟨?_, fun hst => by cases hst⟩
      rw [if_neg (by omega)]
    · have hp : p = ⟨kTYPE2, opWrite, regFDRI, d :: ds⟩ := by
        rw [hpack, List.getElem?_append_right (by omega), hA] at h4
        exact (Option.some.inj h4).symm
      subst hp
      have hwl : ws.length = 46 + j := by
        have h5 : j < (d :: ds).length := h5
        rw [h7, List.length_append, hlA, List.length_cons, show ((⟨kTYPE2, opWrite, regFDRI, d :: ds⟩ : Packet).data.take j).length = j from by
          rw [List.length_take]; exact Nat.min_eq_left (Nat.le_of_lt h5)]
        omega
      unfold Device.sofar
      rw [h6, hrun, hwl]
      cases j with
      | zero =>
        refine ⟨?_, fun hst => by cases hst⟩
        rw [if_neg (by omega)]
        rfl
      | succ j =>
        rw [show 46 + (j + 1) - 46 = j + 1 by omega, List.take_succ_cons]
        by_cases he : idcode = id
        · rw [if_pos ⟨he, by omega⟩, decide_eq_true he]
          exact ⟨rfl, fun hst => by cases hst⟩
        · rw [if_neg (fun hc => he hc.1), decide_eq_false he]
          exact ⟨rfl, fun hst => by cases hst⟩
  · -- behind the frame data
    have ht : pkg.take i = packagePrefix idcode ++ ⟨kTYPE2, opWrite, regFDRI, d :: ds⟩ :: packageSuffix.take (i - 31) := by
      rw [hpack, List.take_append, List.take_of_length_le (by omega), hA]
      obtain ⟨j, hj⟩ : ∃ j, i - 30 = j + 1 := ⟨i - 31, by omega⟩
      rw [hj, List.take_succ_cons, show i - 31 = j by omega]
    have hrl : (Device.run id ws).loaded = if idcode = id then [(0, d :: ds)] else [] := by
      rw [hrun, ht, List.foldl_append, device_prefix, List.foldl_cons, packets_noData id _ fun p hp => suffix_noData p (List.mem_of_mem_take hp)]
      by_cases he : idcode = id
      · rw [if_pos he, decide_eq_true he]; rfl
      · rw [if_neg he, decide_eq_false he]; rfl
    have hlen : 46 + (d :: ds).length ≤ ws.length := by
      have h5 : (wireWords (pkg.take i)).length ≤ ws.length := by
        rcases h3 with ⟨_, h5⟩ | ⟨p, j, _, _, _, h7⟩
        · rw [h5]; exact Nat.le_refl _
        · rw [h7, List.length_append]; omega
      rw [ht] at h5
      have : wireWords (packagePrefix idcode ++ ⟨kTYPE2, opWrite, regFDRI, d :: ds⟩ :: packageSuffix.take (i - 31)) =
          wireWords (packagePrefix idcode) ++ wireWords (⟨kTYPE2, opWrite, regFDRI, d :: ds⟩ :: packageSuffix.take (i - 31)) := by
        unfold wireWords; rw [List.flatMap_append]
      rw [this, wireWords_cons, List.length_append, List.length_cons, List.length_append, hlA] at h5
      simp only at h5
      omega
    have hl : (Device.sofar id ws).loaded = if idcode = id then [(0, d :: ds)] else [] := by
      rcases h3 with ⟨h4, _⟩ | ⟨p, j, h4, _, h6, _⟩
      · rw [hn h4, hrl]
      · rw [hq _ h6 (noData_cut (suffix_noData p ?_) j), hrl]
        rw [hpack, List.getElem?_append_right (by omega), hA] at h4
        obtain ⟨t, he⟩ : ∃ t, i - 30 = t + 1 := ⟨i - 31, by omega⟩
        rw [he, List.getElem?_cons_succ] at h4
        exact List.mem_of_getElem? h4
    constructor
    · rw [hl]
      by_cases he : idcode = id
      · rw [if_pos he, if_pos ⟨he, by simp only [List.length_cons] at hlen; omega⟩, List.take_of_length_le (by omega)]
      · rw [if_neg he, if_neg (fun hc => he hc.1)]
    · intro hst
      refine ⟨Classical.byContradiction fun he => ?_, hlen⟩
      rw [if_neg he] at hl
      exact hso.2 (hso.1 hst) hl

/-! ## What is in its memory -/

/-- How many frames a number of words fills. -/
def filled : List Nat → Nat → Nat
  | [], _ => 0
  | k :: rest, n => if 202 ≤ n then filled rest (n - if rowEnded k rest then 303 else 101) + 1 else 0

theorem filled_more (k : Nat) (rest : List Nat) {n : Nat} (h : 202 ≤ n) :
    filled (k :: rest) n = filled rest (n - if rowEnded k rest then 303 else 101) + 1 := if_pos h

theorem filled_none (k : Nat) (rest : List Nat) {n : Nat} (h : ¬ 202 ≤ n) : filled (k :: rest) n = 0 := if_neg h

theorem pour_more (k : Nat) (rest : List Nat) {ws : List Word} (m : Memory) (h : 202 ≤ ws.length) :
    pour (k :: rest) ws m = pour rest (ws.drop (if rowEnded k rest then 303 else 101)) (m.put k (ws.take 101)) := by
  show pour rest _ (if 202 ≤ ws.length then _ else _) = _
  rw [if_pos h]

theorem pour_none (k : Nat) (rest : List Nat) {ws : List Word} (m : Memory) (h : ¬ 202 ≤ ws.length) :
    pour (k :: rest) ws m = pour rest (ws.drop (if rowEnded k rest then 303 else 101)) m := by
  show pour rest _ (if 202 ≤ ws.length then _ else _) = _
  rw [if_neg h]

theorem filled_mono (order : List Nat) : ∀ (n n' : Nat), n ≤ n' → filled order n ≤ filled order n' := by
  induction order with
  | nil => intro _ _ _; exact Nat.le_refl _
  | cons k rest ih =>
    intro n n' h
    by_cases hn : 202 ≤ n
    · rw [filled_more k rest hn, filled_more k rest (Nat.le_trans hn h)]
      exact Nat.succ_le_succ (ih _ _ (Nat.sub_le_sub_right h _))
    · rw [filled_none k rest hn]
      exact Nat.zero_le _

theorem pour_few (order : List Nat) : ∀ (ws : List Word) (m : Memory), ws.length < 202 → pour order ws m = m := by
  induction order with
  | nil => intro _ _ _; rfl
  | cons k rest ih =>
    intro ws m h
    rw [pour_none k rest m (by omega)]
    exact ih _ m (by rw [List.length_drop]; exact Nat.lt_of_le_of_lt (Nat.sub_le _ _) h)

/-- Some first frames are those of all the words, the rest is as it was. -/
theorem pour_take : ∀ (order : List Nat) (ws : List Word) (n : Nat) (m : Memory), order.Pairwise (· < ·) → ∀ k,
    pour order (ws.take n) m k = if k ∈ order.take (filled order (min n ws.length)) then pour order ws m k else m k := by
  intro order
  induction order with
  | nil => intro ws n m _ k; rfl
  | cons a rest ih =>
    intro ws n m ho k
    obtain ⟨h1, h2⟩ := List.pairwise_cons.1 ho
    by_cases hn : 202 ≤ min n ws.length
    · have hn1 : 202 ≤ n := Nat.le_trans hn (Nat.min_le_left _ _)
      have hn2 : 202 ≤ ws.length := Nat.le_trans hn (Nat.min_le_right _ _)
      have hn3 : 202 ≤ (ws.take n).length := by rw [List.length_take]; exact hn
      rw [filled_more a rest hn, List.take_succ_cons, pour_more a rest m hn3, pour_more a rest m hn2]
      generalize (if rowEnded a rest = true then 303 else 101) = x
      rw [List.drop_take, ih _ _ _ h2, List.take_take, Nat.min_eq_left (by omega : 101 ≤ n), List.length_drop,
        show min (n - x) (ws.length - x) = min n ws.length - x by omega]
      by_cases hka : k = a
      · subst hka
        have hnot : k ∉ rest := fun hm => Nat.lt_irrefl _ (h1 k hm)
        rw [if_neg (fun hm => hnot (List.mem_of_mem_take hm)), if_pos List.mem_cons_self, pour_others _ _ _ _ hnot]
      · by_cases hm : k ∈ rest.take (filled rest (min n ws.length - x))
        · rw [if_pos hm, if_pos (List.mem_cons_of_mem _ hm)]
        · have hno : ¬ k ∈ a :: rest.take (filled rest (min n ws.length - x)) := fun h => by
            rcases List.mem_cons.1 h with h | h
            · exact hka h
            · exact hm h
          rw [if_neg hm, if_neg hno]
          exact if_neg hka
    · rw [pour_few _ _ _ (by rw [List.length_take]; omega), filled_none a rest hn]
      rfl

/-- What is in a frame afterwards comes from the words alone or is what was there. -/
theorem pour_either (k : Nat) (order : List Nat) : ∀ (ws : List Word), (∃ c, ∀ m, pour order ws m k = c) ∨ ∀ m, pour order ws m k = m k := by
  induction order with
  | nil => intro ws; exact Or.inr fun _ => rfl
  | cons a rest ih =>
    intro ws
    by_cases h : 202 ≤ ws.length
    · rcases ih (ws.drop (if rowEnded a rest then 303 else 101)) with ⟨c, hc⟩ | hc
      · exact Or.inl ⟨c, fun m => by rw [pour_more a rest m h]; exact hc _⟩
      · by_cases hk : k = a
        · exact Or.inl ⟨ws.take 101, fun m => by rw [pour_more a rest m h, hc]; exact if_pos hk⟩
        · exact Or.inr fun m => by rw [pour_more a rest m h, hc]; exact if_neg hk
    · rcases ih (ws.drop (if rowEnded a rest then 303 else 101)) with ⟨c, hc⟩ | hc
      · exact Or.inl ⟨c, fun m => by rw [pour_none a rest m h]; exact hc _⟩
      · exact Or.inr fun m => by rw [pour_none a rest m h]; exact hc _

/-- The programming sequence cut anywhere. -/
theorem C133_words (idcode d : Word) (ds : List Word) (h : (d :: ds).length < 2 ^ 27) (order : List Nat) (ho : order.Pairwise (· < ·)) :
    Interruptible order idcode (wireWords (configurationPackage (d :: ds) idcode)) := by
  have hall : ∀ mem, (Device.run idcode (wireWords (configurationPackage (d :: ds) idcode))).memory order mem = pour order (d :: ds) mem := by
    intro mem
    have hl : (Device.run idcode (wireWords (configurationPackage (d :: ds) idcode))).loaded = [(0, d :: ds)] := by
      rw [C63_sequence idcode d ds h idcode]
      exact if_pos rfl
    unfold Device.memory
    rw [hl]
    show pour (order.dropWhile (· < 0)) (d :: ds) mem = _
    rw [whole_dropWhile]
  refine ⟨fun n => filled order (min (n - 46) (d :: ds).length), fun n n' hn => filled_mono _ _ _ (by omega), fun ws hws => ?_⟩
  obtain ⟨h1, h2⟩ := sofar_loaded idcode d ds h idcode ws hws
  have hmem : ∀ mem, (Device.sofar idcode ws).memory order mem = pour order ((d :: ds).take (ws.length - 46)) mem := by
    intro mem
    unfold Device.memory
    rw [h1]
    by_cases hl : 46 < ws.length
    · rw [if_pos ⟨rfl, hl⟩]
      show pour (order.dropWhile (· < 0)) _ mem = _
      rw [whole_dropWhile]
    · rw [if_neg (fun hc => hl hc.2), show ws.length - 46 = 0 by omega]
      exact (pour_few order _ mem (by simp)).symm
  refine ⟨fun mem k => ?_, fun hst mem => ?_, fun mem => ?_, fun id hne => ?_⟩
  · rw [hmem, hall, pour_take _ _ _ _ ho]
  · have := (h2 hst).2
    rw [hmem, hall, List.take_of_length_le (by omega)]
  · funext k
    rw [hall, hall]
    rcases pour_either k order (d :: ds) with ⟨c, hc⟩ | hc
    · rw [hc, hc]
    · rw [hc, hmem, pour_take _ _ _ _ ho, hc]
      exact ite_self _
  · obtain ⟨h3, h4⟩ := sofar_loaded idcode d ds h id ws hws
    rw [if_neg (fun hc => hne hc.1.symm)] at h3
    refine ⟨?_, fun mem => ?_⟩
    · cases hs : (Device.sofar id ws).started with
      | false => rfl
      | true => exact absurd (h4 hs).1.symm hne
    · unfold Device.memory
      rw [h3]; rfl

/-! ## The printed file -/

theorem same_words {a b : List Word} (h : List Word) (e : fileBytes (h ++ a) = fileBytes (h ++ b)) : a = b := by
  have h1 := fileBytes_prefix _ _ (e ▸ List.prefix_refl _ : fileBytes (h ++ a) <+: fileBytes (h ++ b))
  have h2 := fileBytes_prefix _ _ (e ▸ List.prefix_refl _ : fileBytes (h ++ b) <+: fileBytes (h ++ a))
  have h3 := (List.prefix_append_right_inj _).1 h1
  exact h3.eq_of_length_le ((List.prefix_append_right_inj _).1 h2).length_le

/-- Loading an encoded file can be interrupted anywhere: each frame holds what the file has for it or what it held before, and the frames of the file
come first. -/
theorem C133_file (d : Db.Part) (hd : DescDense d) (p : Xc7.Part) (hp : Part.fromPart d = .ok p) (order : List Nat) (ho : FramesInOrder d order)
    (h0 : FrameOf d 0) (hsmall : FitsPacket p) (partName source date time : Bytes) (seek : Bool)
    (hnames : ∀ s ∈ [partName, source, date, time], ShortAscii s)
    (frames : BMap (FrameWords 101)) (hs : frames.Sorted) (hk : ∀ k f, (k, f) ∈ frames → FrameOf d k) :
    ∃ fuel0, ∀ fuel ≥ fuel0, ∃ o file words,
      encode d partName source date time frames ⟨[], 0, seek, false⟩ fuel = some (.ok o) ∧
      readBitFile o.bytes = some file ∧
      file.config = fileBytes (List.replicate 8 0xFFFFFFFF#32 ++ [0x000000BB#32, 0x11220044#32] ++
        List.replicate 2 0xFFFFFFFF#32 ++ [0xAA995566#32] ++ words) ∧
      Interruptible order d.idcode words ∧
      ∀ mem k, (Device.run d.idcode words).memory order mem k =
        if k ∈ order then ((frames.get? k).map (·.toList)).getD (List.replicate 101 0#32) else mem k := by
  have hfits := fits_fromPart d hd.fits p hp
  have hdense := dense_fromPart d hd p hp
  have hid : p.idcode = d.idcode := by cases hp; rfl
  obtain ⟨f1, g1⟩ := C132_file d hd p hp order ho h0 hsmall partName source date time seek hnames frames hs hk
  obtain ⟨m, _, _, _, f2, g2⟩ := encode_file d hd.fits p hp hsmall partName source date time seek hnames frames hs
    (fun k f hkf => by
      obtain ⟨a, b⟩ := (frameOf_iff hd hp k).1 (hk k f hkf)
      exact (reached_iff hfits hdense k).2 (Or.inr ⟨a, b⟩))
  refine ⟨max f1 f2, fun fuel hf => ?_⟩
  obtain ⟨o, file, words, a1, a2, a3, a4, _⟩ := g1 fuel (by omega)
  obtain ⟨o', file', words', data, b1, b2, _, _, _, _, b3, b4, _, ⟨b5, b6, _⟩, _⟩ := g2 fuel (by omega)
  rw [a1] at b1
  obtain rfl := Outcome.ok.inj (Option.some.inj b1)
  rw [a2] at b2
  obtain rfl := Option.some.inj b2
  obtain rfl := same_words _ (a3.symm.trans b3)
  refine ⟨o, file, words, a1, a2, a3, ?_, a4⟩
  rw [b5, hid]
  cases data with
  | nil =>
    rw [Nat.add_mul] at b4
    simp only [List.length_nil] at b4
    omega
  | cons x xs => exact C133_words _ x xs b6 order ho.1

/-- What the program prints is the programming sequence. -/
theorem printed_sequence (env : Env) (load : LoadOrder) (hload : LoadOk load) (ord : HashOrder) (hord : Permutes ord) (inv : Invocation)
    (db : PartDatabase) (text : Bytes) (hstart : Starts env load inv db text)
    (hasm : Assembles db.tiles text)
    (hd : DescFits db.tiles.part) (p : Xc7.Part) (hp : Part.fromPart db.tiles.part = .ok p)
    (hsmall : FitsPacket p) (hdate : ShortAscii inv.date) (htime : ShortAscii inv.time)
    (hin : ∀ k, TouchesFrame db.tiles (Design db.tiles text) k → ∃ a, Reached p a ∧ a.toNat = k % 2 ^ 32)
    (seek : Bool) :
    ∃ fuel0, ∀ fuel ≥ fuel0, ∃ o file d ds,
      main env load ord inv ⟨[], 0, seek, false⟩ fuel = some (.ok (0, o)) ∧
      readBitFile o.bytes = some file ∧ (d :: ds).length < 2 ^ 27 ∧
      file.config = fileBytes (List.replicate 8 0xFFFFFFFF#32 ++ [0x000000BB#32, 0x11220044#32] ++
        List.replicate 2 0xFFFFFFFF#32 ++ [0xAA995566#32] ++ wireWords (configurationPackage (d :: ds) p.idcode)) := by
  obtain ⟨_, _, _, path, _, _, _, hparse⟩ := id hstart
  obtain ⟨hok, hfresh⟩ := C45_loaded env load hload _ _ db hparse
  obtain ⟨db', frames0, ha, hreach, hs0, hbits0, hframes0⟩ := assemble_ok hok ord hord text db hfresh hasm
  obtain ⟨hs, hbits, hframes⟩ := narrow_design hs0 hbits0 hframes0
  have hnarrow := encode_narrow db.tiles.part kFasm kSource inv.date inv.time frames0
  generalize convertFrames [] frames0 = frames at hs hbits hframes hnarrow
  replace hin : ∀ k, FramePresent frames k → ∃ a, Reached p a ∧ a.toNat = k := by
    intro k hk
    obtain ⟨k0, h0, rfl⟩ := (hframes k).1 hk
    exact hin k0 h0
  obtain ⟨m, _, _, _, fuel0, henc⟩ := encode_file db.tiles.part hd p hp hsmall kFasm kSource inv.date inv.time seek
    (by
      intro s hs
      simp only [List.mem_cons, List.not_mem_nil, or_false] at hs
      rcases hs with rfl | rfl | rfl | rfl
      · unfold ShortAscii; decide
      · unfold ShortAscii; decide
      · exact hdate
      · exact htime)
    frames hs (fun k f hkf => hin k ⟨f, hkf⟩)
  refine ⟨fuel0, fun fuel hf => ?_⟩
  obtain ⟨o, file, words, data, h1, h2, _, _, _, _, h3, h4, _, ⟨h5, h6, _⟩, _⟩ := henc fuel hf
  cases data with
  | nil =>
    rw [Nat.add_mul] at h4
    simp only [List.length_nil] at h4
    omega
  | cons x xs =>
    exact ⟨o, file, x, xs, main_started env load ord inv _ fuel db text hstart db' frames0 ha o
      (by rw [(reachable_cache hreach).1, hnarrow]; exact h1), h2, h6, by rw [h3, h5]⟩

section
variable (env : Env) (load : LoadOrder) (hload : LoadOk load) (ord : HashOrder) (hord : Permutes ord) (inv : Invocation) (path : Bytes)
  (hcfg : Configured env inv path) (grid : TileGrid) (part : Db.Part) (pins : PackagePins) (files : Bytes → TypeContents) (ls : List SourceLine)
  (hdb : WholeFiles env path inv.part grid part pins files ls) (hls : ∀ l ∈ ls, l.Ok ∧ l.Dotted) (htext : Input inv (sourceText ls))
include hload hord hcfg hdb hls htext

/-- Loading what the program prints can be interrupted anywhere: a bit of a frame is then the one the files list for the design, or the frame holds
what it held before. -/
theorem C133_program (hknow : FilesSuffice grid part pins files ls) (hd : DescDense part) (p : Xc7.Part) (hp : Part.fromPart part = .ok p)
    (order : List Nat) (ho : FramesInOrder part order) (h0 : FrameOf part 0)
    (hsmall : FitsPacket p) (hdate : ShortAscii inv.date) (htime : ShortAscii inv.time)
    (hin : ∀ tile feature addr block s k, WantsBit grid part pins ls tile feature addr → FileBits grid files tile feature addr block s → Fills block s k →
      FrameOf part (k % 2 ^ 32)) (seek : Bool) :
    ∃ fuel0, ∀ fuel ≥ fuel0, ∃ o file words,
      main env load ord inv ⟨[], 0, seek, false⟩ fuel = some (.ok (0, o)) ∧
      readBitFile o.bytes = some file ∧
      file.config = fileBytes (List.replicate 8 0xFFFFFFFF#32 ++ [0x000000BB#32, 0x11220044#32] ++
        List.replicate 2 0xFFFFFFFF#32 ++ [0xAA995566#32] ++ words) ∧
      Interruptible order part.idcode words ∧
      ∀ mem k, k ∈ order → ∀ w b, w < 101 → ((∃ x, ((Device.run part.idcode words).memory order mem k)[w]? = some x ∧ x.getLsbD b = true) ↔
        ∃ tile feature addr block s, WantsBit grid part pins ls tile feature addr ∧ FileBits grid files tile feature addr block s ∧
          s.isSet = true ∧ Lies block s k w b) := by
  have hfits := fits_fromPart part hd.fits p hp
  have hdense := dense_fromPart part hd p hp
  have hid : p.idcode = part.idcode := by cases hp; rfl
  obtain ⟨f1, g1⟩ := C132_memory env load hload ord hord inv path hcfg grid part pins files ls hdb hls htext hknow hd p hp order ho h0 hsmall hdate htime hin seek
  obtain ⟨bits, hs, hf⟩ := whole_load hcfg hdb htext
  have hswap := whole_order env load hload ord hord inv path hcfg grid part pins files ls hdb hls htext
  have hok : ∀ l ∈ ls, l.Ok := fun l hl => (hls l hl).1
  obtain ⟨f2, g2⟩ := printed_sequence env sameLoad sameLoad_ok sameOrder sameOrder_permutes inv _ _ hs
    ((sourceAssembles_iff _ ls hok).2 ((whole_assembles ⟨grid, bits, Registry.create (fun l => l) part pins, part⟩ pins rfl hdb.settled files ls hls hf).2 hknow))
    hd.fits p hp hsmall hdate htime
    (fun k ht => by
      rw [sourceDesign_iff _ ls hok] at ht
      obtain ⟨tile, feature, addr, block, s, a1, a2, a3⟩ := whole_touches ⟨grid, bits, Registry.create (fun l => l) part pins, part⟩ pins rfl hdb.settled files ls hls hf k ht
      exact (reached_iff hfits hdense _).2 (Or.inr ((frameOf_iff hd hp _).1 (hin tile feature addr block s k a1 a2 a3)))) seek
  refine ⟨max f1 f2, fun fuel hfu => ?_⟩
  obtain ⟨o, file, words, a1, a2, a3, a4, _⟩ := g1 fuel (by omega)
  obtain ⟨o', file', x, xs, b1, b2, b3, b4⟩ := g2 fuel (by omega)
  rw [← hswap, a1] at b1
  obtain rfl := (Prod.mk.inj (Outcome.ok.inj (Option.some.inj b1))).2
  rw [a2] at b2
  obtain rfl := Option.some.inj b2
  have hw := same_words _ (a3.symm.trans b4)
  refine ⟨o, file, words, a1, a2, a3, ?_, fun mem k hk => ((a4 mem k).1 hk).2⟩
  rw [hw, hid]
  exact C133_words _ x xs b3 order ho.1

end

/-- Three frames and two behind them, cut after 303 words of the data: two frames are new, the third is as it was. -/
example :
    let words := wireWords (configurationPackage (List.replicate 505 7#32) 5#32)
    let s := Device.sofar 5#32 (words.take 349)
    s.memory [0, 1, 2] (fun _ => [1#32]) 0 = List.replicate 101 7#32 ∧ s.memory [0, 1, 2] (fun _ => [1#32]) 1 = List.replicate 101 7#32 ∧
    s.memory [0, 1, 2] (fun _ => [1#32]) 2 = [1#32] ∧ s.started = false ∧ (Device.run 5#32 (words.take 349)).loaded = [] ∧
    (Device.sofar 5#32 words).started = true := by
  decide +kernel

/-- The design `IOB33.IOB_Y0.STEPDOWN` in a part with rows and columns in both halves. -/
example (load : LoadOrder) (hload : LoadOk load) (ord : HashOrder) (hord : Permutes ord) :
    ∃ order, FramesInOrder smallDesc order ∧ ∃ fuel0, ∀ fuel ≥ fuel0, ∃ o file words,
      main yardEnv load ord yardInv ⟨[], 0, true, false⟩ fuel = some (.ok (0, o)) ∧
      readBitFile o.bytes = some file ∧
      file.config = fileBytes (List.replicate 8 0xFFFFFFFF#32 ++ [0x000000BB#32, 0x11220044#32] ++
        List.replicate 2 0xFFFFFFFF#32 ++ [0xAA995566#32] ++ words) ∧
      Interruptible order smallDesc.idcode words := by
  obtain ⟨order, ho, _⟩ := C132_order smallDesc smallDesc_dense.fits
  obtain ⟨fuel0, h⟩ := C133_program yardEnv load hload ord hord yardInv bytes!"d"
    ⟨by decide, Or.inr ⟨rfl, rfl⟩, by decide, by decide, by decide⟩ yardGrid smallDesc yardPins (fun _ => yardContents) [yardStep] yard_files yard_ok
    (Or.inr ⟨fun _ _ h => by simp [yardInv, fileInv] at h, rfl⟩) yard_suffice smallDesc_dense _ rfl order ho small_zero
    smallDesc_packet (by unfold ShortAscii; decide) (by unfold ShortAscii; decide)
    (fun tile feature addr block s k hw hl hf => by
      have hk := yard_inside hw hl hf
      rw [Nat.mod_eq_of_lt (by omega)]
      exact ⟨.clbIoClk, false, 0, 0, k, 36, rfl, hk, by simp [busNumber]⟩) true
  refine ⟨order, ho, fuel0, fun fuel hf => ?_⟩
  obtain ⟨o, file, words, a1, a2, a3, a4, _⟩ := h fuel hf
  exact ⟨o, file, words, a1, a2, a3, a4⟩

end Verif.Props
