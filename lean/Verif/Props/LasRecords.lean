import Verif.Spec.Las
import Verif.Model.Las
import Verif.Lemmas.Loop

/-!
# LAS flag bytes and record layouts (C35, C36)
-/

namespace Pasture.Props

open Pasture Las Spec

/-! ## C35: flag bytes -/

theorem and_mask {w : Nat} (x : BitVec w) (k : Nat) (hk : k < w) :
    (x &&& BitVec.ofNat w (2 ^ k - 1)).toNat = x.toNat % 2 ^ k := by
  rw [BitVec.toNat_and, BitVec.toNat_ofNat]
  have h1 : (2 ^ k - 1) % 2 ^ w = 2 ^ k - 1 := by
    apply Nat.mod_eq_of_lt
    have := Nat.pow_lt_pow_right (a := 2) (by omega) hk
    have := Nat.two_pow_pos k
    omega
  rw [h1, Nat.and_two_pow_sub_one_eq_mod]

theorem pack_byte_3311 : ∀ (a : Fin 8) (b : Fin 8) (c : Fin 2) (d : Fin 2),
    (BitVec.ofNat 8 a ||| BitVec.ofNat 8 b <<< 3 ||| BitVec.ofNat 8 c <<< 6 ||| BitVec.ofNat 8 d <<< 7).toNat =
      a + 8 * b + 64 * c + 128 * d := by decide

theorem pack_byte_44 : ∀ (a : Fin 16) (b : Fin 16),
    (BitVec.ofNat 8 a ||| BitVec.ofNat 8 b <<< 4).toNat = a + 16 * b := by decide

theorem pack_byte_4211 : ∀ (a : Fin 16) (b : Fin 4) (c : Fin 2) (d : Fin 2),
    (BitVec.ofNat 8 a ||| BitVec.ofNat 8 b <<< 4 ||| BitVec.ofNat 8 c <<< 6 ||| BitVec.ofNat 8 d <<< 7).toNat =
      a + 16 * b + 64 * c + 128 * d := by decide

theorem masked_eq (x : BitVec 8) (k : Nat) (hk : k < 8) :
    x &&& BitVec.ofNat 8 (2 ^ k - 1) = BitVec.ofNat 8 (x.toNat % 2 ^ k) := by
  apply BitVec.eq_of_toNat_eq
  rw [and_mask _ _ hk, BitVec.toNat_ofNat]
  have h1 := Nat.mod_lt x.toNat (Nat.two_pow_pos k)
  have h2 : 2 ^ k ≤ 2 ^ 8 := Nat.pow_le_pow_right (by omega) (by omega)
  rw [Nat.mod_eq_of_lt (a := x.toNat % 2 ^ k) (by omega)]

/-- **C35** (formats 0-5): the flag byte written is the LAS bit field with return number in bits 0-2,
    number of returns in bits 3-5, scan direction in bit 6 and edge of flight line in bit 7, each value
    reduced to its field. -/
theorem C35_basic_flags (a : BitsRegular) :
    ∃ flags, packRegular a = [flags] ∧
      flags.toNat = a.returnNumber.toNat % 2 ^ 3 + 2 ^ 3 * (a.numberOfReturns.toNat % 2 ^ 3)
        + 2 ^ 6 * (a.scanDirectionFlag.toNat % 2 ^ 1) + 2 ^ 7 * (a.edgeOfFlightLine.toNat % 2 ^ 1) := by
  refine ⟨_, rfl, ?_⟩
  have m7 := fun x => masked_eq x 3 (by omega)
  have m1 := fun x => masked_eq x 1 (by omega)
  simp only [Nat.reducePow, Nat.reduceSub] at m7 m1
  rw [m7, m7, m1, m1]
  exact pack_byte_3311 ⟨_, Nat.mod_lt _ (by omega)⟩ ⟨_, Nat.mod_lt _ (by omega)⟩
    ⟨_, Nat.mod_lt _ (by omega)⟩ ⟨_, Nat.mod_lt _ (by omega)⟩

/-- **C35** (formats 6-10): the two flag bytes, read as a little-endian number, hold return number,
    number of returns, classification flags (4 bits each), scanner channel (2), scan direction (1) and
    edge of flight line (1). -/
theorem C35_extended_flags (a : BitsExtended) :
    (packExtended a).length = 2 ∧
    leNat (packExtended a) = a.returnNumber.toNat % 2 ^ 4 + 2 ^ 4 * (a.numberOfReturns.toNat % 2 ^ 4)
        + 2 ^ 8 * (a.classificationFlags.toNat % 2 ^ 4) + 2 ^ 12 * (a.scannerChannel.toNat % 2 ^ 2)
        + 2 ^ 14 * (a.scanDirectionFlag.toNat % 2 ^ 1) + 2 ^ 15 * (a.edgeOfFlightLine.toNat % 2 ^ 1) := by
  refine ⟨rfl, ?_⟩
  have m15 := fun x => masked_eq x 4 (by omega)
  have m3 := fun x => masked_eq x 2 (by omega)
  have m1 := fun x => masked_eq x 1 (by omega)
  simp only [Nat.reducePow, Nat.reduceSub] at m15 m3 m1
  unfold packExtended
  simp only [m15, m3, m1, leNat]
  have h1 := pack_byte_44 ⟨a.returnNumber.toNat % 16, Nat.mod_lt _ (by omega)⟩
    ⟨a.numberOfReturns.toNat % 16, Nat.mod_lt _ (by omega)⟩
  have h2 := pack_byte_4211 ⟨a.classificationFlags.toNat % 16, Nat.mod_lt _ (by omega)⟩
    ⟨a.scannerChannel.toNat % 4, Nat.mod_lt _ (by omega)⟩
    ⟨a.scanDirectionFlag.toNat % 2, Nat.mod_lt _ (by omega)⟩
    ⟨a.edgeOfFlightLine.toNat % 2, Nat.mod_lt _ (by omega)⟩
  simp only at h1 h2
  rw [h1, h2]
  omega

theorem shifted_mask {w : Nat} (x : BitVec w) (s k : Nat) (hk : k < w) :
    ((x >>> s) &&& BitVec.ofNat w (2 ^ k - 1)).toNat = x.toNat / 2 ^ s % 2 ^ k := by
  rw [and_mask _ _ hk, BitVec.toNat_ushiftRight, Nat.shiftRight_eq_div_pow]

/-- **C35** (formats 0-5): what the reader takes out of the flag byte is what was put in, reduced to
    the width of the field; in particular no field disturbs another. -/
theorem C35_basic_roundtrip (a : BitsRegular) (flags : BitVec 8) (h : packRegular a = [flags]) :
    (basicReturnNumber flags).toNat = a.returnNumber.toNat % 2 ^ 3 ∧
    (basicNumberOfReturns flags).toNat = a.numberOfReturns.toNat % 2 ^ 3 ∧
    (basicScanDirectionFlag flags).toNat = a.scanDirectionFlag.toNat % 2 ^ 1 ∧
    (basicEdgeOfFlightLine flags).toNat = a.edgeOfFlightLine.toNat % 2 ^ 1 := by
  obtain ⟨fl, h1, h2⟩ := C35_basic_flags a
  rw [h1] at h
  obtain rfl : fl = flags := by simpa using h
  have m0 := and_mask fl 3 (by omega)
  have m3 := shifted_mask fl 3 3 (by omega)
  have m6 := shifted_mask fl 6 1 (by omega)
  have m7 := shifted_mask fl 7 1 (by omega)
  unfold basicReturnNumber basicNumberOfReturns basicScanDirectionFlag basicEdgeOfFlightLine
  refine ⟨?_, ?_, ?_, ?_⟩
  · exact m0.trans (by rw [h2]; omega)
  · exact m3.trans (by rw [h2]; omega)
  · exact m6.trans (by rw [h2]; omega)
  · exact m7.trans (by rw [h2]; omega)

/-- **C35** (formats 6-10): the same for the extended flags. -/
theorem C35_extended_roundtrip (a : BitsExtended) (flags : BitVec 16)
    (h : flags.toNat = leNat (packExtended a)) :
    (extendedReturnNumber flags).toNat = a.returnNumber.toNat % 2 ^ 4 ∧
    (extendedNumberOfReturns flags).toNat = a.numberOfReturns.toNat % 2 ^ 4 ∧
    (extendedClassificationFlags flags).toNat = a.classificationFlags.toNat % 2 ^ 4 ∧
    (extendedScannerChannel flags).toNat = a.scannerChannel.toNat % 2 ^ 2 ∧
    (extendedScanDirectionFlag flags).toNat = a.scanDirectionFlag.toNat % 2 ^ 1 ∧
    (extendedEdgeOfFlightLine flags).toNat = a.edgeOfFlightLine.toNat % 2 ^ 1 := by
  rw [(C35_extended_flags a).2] at h
  have m0 := and_mask flags 4 (by omega)
  have m4 := shifted_mask flags 4 4 (by omega)
  have m8 := shifted_mask flags 8 4 (by omega)
  have m12 := shifted_mask flags 12 2 (by omega)
  have m14 := shifted_mask flags 14 1 (by omega)
  have m15 := shifted_mask flags 15 1 (by omega)
  simp only [Nat.reducePow] at h
  unfold extendedReturnNumber extendedNumberOfReturns extendedClassificationFlags extendedScannerChannel
    extendedScanDirectionFlag extendedEdgeOfFlightLine
  refine ⟨?_, ?_, ?_, ?_, ?_, ?_⟩
  · exact m0.trans (by simp only [Nat.reducePow]; omega)
  · exact m4.trans (by simp only [Nat.reducePow]; omega)
  · exact m8.trans (by simp only [Nat.reducePow]; omega)
  · exact m12.trans (by simp only [Nat.reducePow]; omega)
  · exact m14.trans (by simp only [Nat.reducePow]; omega)
  · exact m15.trans (by simp only [Nat.reducePow]; omega)

/-- **C35**: values that fit their fields come back unchanged (formats 0-5). -/
theorem C35_basic_fits (a : BitsRegular) (flags : BitVec 8) (h : packRegular a = [flags])
    (h1 : a.returnNumber.toNat < 8) (h2 : a.numberOfReturns.toNat < 8)
    (h3 : a.scanDirectionFlag.toNat < 2) (h4 : a.edgeOfFlightLine.toNat < 2) :
    (⟨basicReturnNumber flags, basicNumberOfReturns flags, basicScanDirectionFlag flags,
      basicEdgeOfFlightLine flags⟩ : BitsRegular) = a := by
  obtain ⟨r1, r2, r3, r4⟩ := C35_basic_roundtrip a flags h
  rw [Nat.mod_eq_of_lt (by omega)] at r1 r2 r3 r4
  have e1 := BitVec.eq_of_toNat_eq r1
  have e2 := BitVec.eq_of_toNat_eq r2
  have e3 := BitVec.eq_of_toNat_eq r3
  have e4 := BitVec.eq_of_toNat_eq r4
  rw [e1, e2, e3, e4]

/-- **C35**: values that fit their fields come back unchanged (formats 6-10); the reader converts the
    `u16` fields to `u8`. -/
theorem C35_extended_fits (a : BitsExtended) (flags : BitVec 16)
    (h : flags.toNat = leNat (packExtended a))
    (h1 : a.returnNumber.toNat < 16) (h2 : a.numberOfReturns.toNat < 16)
    (h3 : a.classificationFlags.toNat < 16) (h4 : a.scannerChannel.toNat < 4)
    (h5 : a.scanDirectionFlag.toNat < 2) (h6 : a.edgeOfFlightLine.toNat < 2) :
    (⟨(extendedReturnNumber flags).setWidth 8, (extendedNumberOfReturns flags).setWidth 8,
      (extendedClassificationFlags flags).setWidth 8, (extendedScannerChannel flags).setWidth 8,
      (extendedScanDirectionFlag flags).setWidth 8, (extendedEdgeOfFlightLine flags).setWidth 8⟩ :
        BitsExtended) = a := by
  obtain ⟨r1, r2, r3, r4, r5, r6⟩ := C35_extended_roundtrip a flags h
  rw [Nat.mod_eq_of_lt (by omega)] at r1 r2 r3 r4 r5 r6
  have key : ∀ (x : BitVec 16) (y : BitVec 8), x.toNat = y.toNat → x.setWidth 8 = y := by
    intro x y hxy
    apply BitVec.eq_of_toNat_eq
    rw [BitVec.toNat_setWidth, hxy]
    exact Nat.mod_eq_of_lt y.isLt
  rw [key _ _ r1, key _ _ r2, key _ _ r3, key _ _ r4, key _ _ r5, key _ _ r6]

/-- Non-vacuity: the third of five returns at the edge of a flight line. -/
example : packRegular ⟨3, 5, 0, 1⟩ = [0b10101011] := by decide

/-- Non-vacuity: an out-of-range return number does not reach the neighbouring field. -/
example : packExtended ⟨0x13, 2, 0xf, 1, 1, 0⟩ = [0x23, 0x5f] := by decide

/-! ## C36: record layouts -/

/-- **C36**: for every point format the exact layout is the point record of the LAS specification:
    the same items in the same order without gaps, and the specified record length, which is also the
    record length the `las` crate computes. -/
theorem C36_exact_layout (n : Nat) (hn : n ≤ 10) :
    ∃ f l, Format.new n = .ok f ∧ f.toU8 = .ok n ∧ pointLayoutFromFormat f true = .ok l ∧
      shape l = placed 0 (lasItems n) ∧ l.size = lasRecordLength n ∧ l.align = 1 ∧
      f.len = lasRecordLength n := by
  have key : ∀ n : Fin 11, ∃ f l, Format.new n = .ok f ∧ f.toU8 = .ok n.val ∧
      pointLayoutFromFormat f true = .ok l ∧
      shape l = placed 0 (lasItems n) ∧ l.size = lasRecordLength n ∧ l.align = 1 ∧
      f.len = lasRecordLength n := by
    intro n
    match n with
    | 0 | 1 | 2 | 3 | 4 | 5 | 6 | 7 | 8 | 9 | 10 => exact ⟨_, _, rfl, rfl, rfl, by decide, by decide, by decide, by decide⟩
  exact key ⟨n, by omega⟩

/-- **C36**: the default layout has the same items with the position as `f64` and one byte for each bit
    field, tightly packed. -/
theorem C36_default_layout (n : Nat) (hn : n ≤ 10) :
    ∃ f l, Format.new n = .ok f ∧ pointLayoutFromFormat f false = .ok l ∧
      shape l = placed 0 ((lasItems n).flatMap expandItem) ∧
      l.size = (((lasItems n).flatMap expandItem).map (·.2)).sum ∧ l.align = 1 := by
  have key : ∀ n : Fin 11, ∃ f l, Format.new n = .ok f ∧ pointLayoutFromFormat f false = .ok l ∧
      shape l = placed 0 ((lasItems n).flatMap expandItem) ∧
      l.size = (((lasItems n).flatMap expandItem).map (·.2)).sum ∧ l.align = 1 := by
    intro n
    match n with
    | 0 | 1 | 2 | 3 | 4 | 5 | 6 | 7 | 8 | 9 | 10 => exact ⟨_, _, rfl, rfl, by decide, by decide, by decide⟩
  exact key ⟨n, by omega⟩

/-- **C36**: for formats outside 0-10 (optional parts no LAS format combines) there is no layout but an
    error, and only for those. -/
theorem C36_invalid_format (f : Format) (exact : Bool) :
    (∃ l, pointLayoutFromFormat f exact = .ok l) ↔ ValidOptions (optionsOf f) := by
  obtain ⟨g, c, e, w, r, x, z⟩ := f
  have key : ∀ g c e w r ex : Bool, (match pointLayoutFromFormat ⟨g, c, e, w, r, 0, false⟩ ex with
      | .ok _ => true | .error _ => false) = decide (ValidOptions (g, c, r, w, e)) := by decide +kernel
  have hx : pointLayoutFromFormat ⟨g, c, e, w, r, x, z⟩ exact = pointLayoutFromFormat ⟨g, c, e, w, r, 0, false⟩ exact :=
    rfl
  have hk := key g c e w r exact
  rw [hx]
  show _ ↔ ValidOptions (g, c, r, w, e)
  constructor
  · rintro ⟨l, hl⟩
    rw [hl] at hk
    exact of_decide_eq_true hk.symm
  · intro hv
    rw [decide_eq_true hv] at hk
    cases hl : pointLayoutFromFormat ⟨g, c, e, w, r, 0, false⟩ exact with
    | ok l => exact ⟨l, rfl⟩
    | error e => rw [hl] at hk; cases hk

/-- The names `las_point_format_from_point_layout` looks for. -/
def optionalNames : List String :=
  ["GpsTime", "ColorRGB", "NIR", "WavePacketDescriptorIndex", "WaveformDataOffset", "WaveformPacketSize",
   "ReturnPointWaveformLocation", "WaveformParameters", "ScanAngle", "ScannerChannel", "ClassificationFlags"]

theorem formatFromPointLayout_congr (l l' : PointLayout)
    (h : ∀ n ∈ optionalNames, l.hasAttributeWithName n = l'.hasAttributeWithName n) :
    formatFromPointLayout l = formatFromPointLayout l' := by
  simp only [optionalNames, List.forall_mem_cons] at h
  unfold formatFromPointLayout
  simp only [gpsTime, colorRgb, nir, wavePacketDescriptorIndex, waveformDataOffset, waveformPacketSize,
    returnPointWaveformLocation, waveformParameters, scanAngle, scannerChannel, classificationFlags, h]
  rfl

/-- **C36**: from the exact and from the default layout of a format the same format is recovered, also
    if further attributes (extra bytes) follow whose names are none of the standard ones. -/
theorem C36_format_recovered (n : Nat) (hn : n ≤ 10) (exact : Bool) (extra : List Member)
    (hx : ∀ m ∈ extra, m.name ∉ optionalNames) :
    ∃ f l, Format.new n = .ok f ∧ pointLayoutFromFormat f exact = .ok l ∧
      ∀ size align, formatFromPointLayout ⟨l.attributes ++ extra, size, align⟩ = .ok f := by
  have key : ∀ (n : Fin 11) (exact : Bool), ∃ f l, Format.new n = .ok f ∧
      pointLayoutFromFormat f exact = .ok l ∧ formatFromPointLayout l = .ok f := by
    intro n exact
    cases exact <;> match n with
    | 0 | 1 | 2 | 3 | 4 | 5 | 6 | 7 | 8 | 9 | 10 => exact ⟨_, _, rfl, rfl, by decide⟩
  obtain ⟨f, l, h1, h2, h3⟩ := key ⟨n, by omega⟩ exact
  refine ⟨f, l, h1, h2, fun size align => ?_⟩
  rw [← h3]
  apply formatFromPointLayout_congr
  intro name hname
  unfold PointLayout.hasAttributeWithName
  rw [List.any_append]
  have : extra.any (fun m => decide (m.name = name)) = false := by
    rw [List.any_eq_false]
    intro m hm
    have := hx m hm
    simp only [decide_eq_true_eq]
    rintro rfl
    exact this hname
  rw [this, Bool.or_false]

/-- The extra bytes of a record start behind what the format itself needs; there is no such place exactly when
    there are no extra bytes. -/
theorem C36_extra_bytes_offset (n : Nat) (hn : n ≤ 10) (extra : Nat) :
    ∃ f, Format.new n = .ok f ∧
      offsetToExtraBytes { f with extraBytes := extra } =
        if extra = 0 then none else some (lasRecordLength n) := by
  have key : ∀ n : Fin 11, ∃ f, Format.new n = .ok f ∧ f.len = lasRecordLength n ∧ f.extraBytes = 0 := by
    intro n
    match n with
    | 0 | 1 | 2 | 3 | 4 | 5 | 6 | 7 | 8 | 9 | 10 => exact ⟨_, rfl, by decide, rfl⟩
  obtain ⟨f, h1, h2, h3⟩ := key ⟨n, by omega⟩
  refine ⟨f, h1, ?_⟩
  unfold offsetToExtraBytes
  by_cases h0 : extra = 0
  · rw [if_pos h0, if_pos h0]
  · rw [if_neg h0, if_neg h0]
    have : ({ f with extraBytes := extra } : Format).len = lasRecordLength n + extra := by
      rw [← h2]
      obtain ⟨g, c, e, w, r, x, z⟩ := f
      simp only at h3
      subst h3
      simp only [Format.len]
      omega
    rw [this]
    simp

/-- The known LAS attributes are those that occur in the default layout of one of the formats 0 to 10; only the
    name counts. -/
theorem C36_known_attributes (d : AttrDef) :
    isKnownLasAttribute d = true ↔
      ∃ n ≤ 10, d.name ∈ ((lasItems n).flatMap expandItem).map (·.1) := by
  have hnames : ∀ s ∈ [position3D, intensity, returnNumber, numberOfReturns, classificationFlags, scannerChannel,
      scanDirectionFlag, edgeOfFlightLine, classification, userData, scanAngle, scanAngleRank,
      pointSourceId, gpsTime, colorRgb, nir, waveformDataOffset, waveformPacketSize, waveformParameters,
      wavePacketDescriptorIndex, returnPointWaveformLocation].map AttrDef.name,
      ∃ n ≤ 10, s ∈ ((lasItems n).flatMap expandItem).map (·.1) := by decide +kernel
  have hback : ∀ n : Fin 11, ∀ s ∈ ((lasItems n.val).flatMap expandItem).map (·.1),
      s ∈ [position3D, intensity, returnNumber, numberOfReturns, classificationFlags, scannerChannel,
      scanDirectionFlag, edgeOfFlightLine, classification, userData, scanAngle, scanAngleRank,
      pointSourceId, gpsTime, colorRgb, nir, waveformDataOffset, waveformPacketSize, waveformParameters,
      wavePacketDescriptorIndex, returnPointWaveformLocation].map AttrDef.name := by decide +kernel
  unfold isKnownLasAttribute
  rw [List.any_eq_true]
  constructor
  · rintro ⟨a, ha, he⟩
    have he : a.name = d.name := of_decide_eq_true he
    rw [← he]
    exact hnames _ (List.mem_map_of_mem ha)
  · rintro ⟨n, hn, hm⟩
    obtain ⟨a, ha, he⟩ := List.mem_map.1 (hback ⟨n, by omega⟩ _ hm)
    exact ⟨a, ha, decide_eq_true he⟩

example : isKnownLasAttribute ⟨"Position3D", .vec3f32⟩ = true ∧ isKnownLasAttribute ⟨"Normal", .vec3f32⟩ = false ∧
    isKnownLasAttribute ⟨"LASBasicFlags", .u8⟩ = false := by decide +kernel

/-- Non-vacuity: the exact layout of format 3. -/
example : (placed 0 (lasItems 3)).getLast? = some ("ColorRGB", 28, 6) := by decide

/-- Non-vacuity: an extra attribute that is not one of the standard ones. -/
example : ∀ m ∈ [(⟨⟨"Reflectance", .f32⟩, 34⟩ : Member)], m.name ∉ optionalNames := by decide

/-! ## C66: the best matching format -/

/-- **C66**: what `las_point_format_from_point_layout` returns, for every layout: each optional part is
    present iff an attribute of that name is, and the format is an extended one iff an attribute that
    only extended formats have is present. -/
theorem C66_best_match (l : PointLayout) :
    ∃ f, formatFromPointLayout l = .ok f ∧
      optionsOf f = (l.hasAttributeWithName "GpsTime", l.hasAttributeWithName "ColorRGB",
        l.hasAttributeWithName "NIR",
        ["WavePacketDescriptorIndex", "WaveformDataOffset", "WaveformPacketSize",
          "ReturnPointWaveformLocation", "WaveformParameters"].any l.hasAttributeWithName,
        ["NIR", "ScanAngle", "ScannerChannel", "ClassificationFlags"].any l.hasAttributeWithName) := by
  refine ⟨_, rfl, ?_⟩
  simp only [List.any_cons, List.any_nil, Bool.or_false, ← Bool.or_assoc]
  unfold optionsOf
  split
  · rename_i h
    simp only [Prod.mk.injEq]
    exact ⟨rfl, rfl, rfl, rfl, h.symm⟩
  · rename_i h
    simp only [Prod.mk.injEq]
    exact ⟨rfl, rfl, rfl, rfl, (Bool.eq_false_iff.2 h).symm⟩

/-- **C66 violated**: the result is not always a LAS point format. Positions with a scan angle but no
    GPS time give optional parts that no format combines, so no layout exists for the "best match". -/
theorem C66_violated :
    ∃ l f, PointLayout.fromAttributes [position3D, scanAngle] = .ok l ∧
      formatFromPointLayout l = .ok f ∧ ¬ ValidOptions (optionsOf f) ∧
      pointLayoutFromFormat f false = .error .err :=
  ⟨_, _, rfl, rfl, by decide, rfl⟩

/-- **C66 in part**: the result is a point format (0-3) if the layout has no optional attributes other
    than GPS time and colour; for the other layouts C66_best_match and C36_invalid_format tell which
    combinations are formats. Missing: combinations without a format, where the property is false. -/
theorem C66_valid_partial (l : PointLayout) (f : Format) (h : formatFromPointLayout l = .ok f)
    (hno : ∀ n ∈ optionalNames, n ≠ "GpsTime" → n ≠ "ColorRGB" → l.hasAttributeWithName n = false) :
    ∃ n, n ≤ 3 ∧ f.toU8 = .ok n ∧ ∃ l', pointLayoutFromFormat f false = .ok l' := by
  simp only [optionalNames, List.forall_mem_cons, ne_eq, not_true_eq_false, String.reduceEq,
    not_false_eq_true, forall_const, false_implies, List.not_mem_nil, and_true,
    true_and] at hno
  unfold formatFromPointLayout at h
  simp only [gpsTime, colorRgb, nir, wavePacketDescriptorIndex, waveformDataOffset, waveformPacketSize,
    returnPointWaveformLocation, waveformParameters, scanAngle, scannerChannel, classificationFlags, hno] at h
  generalize l.hasAttributeWithName "GpsTime" = g at h
  generalize l.hasAttributeWithName "ColorRGB" = c at h
  clear hno
  cases g <;> cases c <;>
    (injection h with h; subst h; exact ⟨_, (by decide), rfl, _, rfl⟩)

end Pasture.Props
