import Verif.Spec.LasPoint
import Verif.Lemmas.LasCopy
import Verif.Lemmas.VoxelCentroid
import Verif.Props.Convert

/-!
# C89: Points of the `las` crate keep their values
-/

namespace Pasture.Props
open Pasture.Las Pasture.Spec

/-! ## A packed record shows its fields -/

theorem window_at (a v b : Bytes) : window (a ++ (v ++ b)) a.length v.length = v := by
  unfold window
  rw [List.drop_left, List.take_left]

theorem packed_shows (front : Bytes) : ∀ (ds : List AttrDef) (vs : List Bytes), vs.map List.length = ds.map AttrDef.size →
    (packedMembers front.length ds).map (fun m => (m.definition, window (front ++ vs.flatten) m.offset m.size)) = ds.zip vs
  | [], [], _ => rfl
  | [], _ :: _, h => by cases h
  | _ :: _, [], h => by cases h
  | d :: ds, v :: vs, h => by
    have h1 : v.length = d.size := (List.cons.inj h).1
    have h2 := packed_shows (front ++ v) ds vs (List.cons.inj h).2
    rw [List.length_append, h1, List.append_assoc] at h2
    show (d, window (front ++ (v ++ vs.flatten)) front.length d.size) :: _ = (d, v) :: _
    rw [← h1, window_at]
    congr 1
    rw [h1]
    exact h2

theorem pointOf_packed {ds : List AttrDef} {vs : List Bytes} (h : vs.map List.length = ds.map AttrDef.size) :
    pointOf (packedLayout ds) vs.flatten = ds.zip vs := packed_shows [] ds vs h

theorem flatten_size {ds : List AttrDef} {vs : List Bytes} (h : vs.map List.length = ds.map AttrDef.size) :
    vs.flatten.length = (packedLayout ds).size := by
  rw [List.length_flatten, h]; rfl

/-! ## Values -/

theorem write_length (t : Prim) (x : Num) : (writeNum t x).length = t.size := by
  cases x <;> exact natLE_length _ _

theorem uint_holds {w : Nat} (t : Prim) (v : BitVec w) (h0 : t.lo = 0) (h : t.hi = 2 ^ w - 1) :
    Holds t (writeNum t (.int v.toNat)) v.toNat := by
  apply holds_write
  have := v.isLt
  rw [h0, h]
  exact ⟨by omega, by have : ((v.toNat : Int)) < 2 ^ w := by exact_mod_cast this
                      omega⟩

/-- The attributes of the first fields, and the values. -/
def basicPoint (p : CratePoint) : Point := (writtenAttributes format0).zip p.basicValues

theorem vector_holds {q : Point} {name : String} {a b c : Bytes} {size : Nat} {x y z : Bytes → Prop}
    (h : valueNamed q name = some (a ++ b ++ c)) (ha : a.length = size) (hb : b.length = size) (hc : c.length = size)
    (hx : x a) (hy : y b) (hz : z c) : HasVector q name size x y z := by
  refine ⟨_, h, ?_, ?_, ?_, ?_⟩
  · rw [List.length_append, List.length_append]; omega
  · rw [List.append_assoc]
    subst ha
    have := window_at [] a (b ++ c)
    rw [List.nil_append] at this
    rw [show (0 : Nat) = ([] : Bytes).length from rfl, this]
    exact hx
  · have := window_at a b c
    rw [ha, hb] at this
    rw [List.append_assoc, this]
    exact hy
  · have := window_at (a ++ b) c []
    rw [List.append_nil, List.length_append, ha, hb, hc] at this
    rw [show 2 * size = size + size by omega, this]
    exact hz

/-- `q` starts with the basic attributes: what is left to show is what the optional parts are. -/
theorem basic_shows {n : Nat} {p : CratePoint} (hp : CrateValid p) (rest : Point)
    (hg : HasItem n "GpsTime" → HasDouble (basicPoint p ++ rest) "GpsTime" (match p.gpsTime with
      | some t => t
      | none => ⟨false, 0⟩))
    (hc : HasItem n "ColorRGB" → ∃ c, p.color = some c ∧ HasVector (basicPoint p ++ rest) "ColorRGB" 2
      (Holds .u16 · c.red.toNat) (Holds .u16 · c.green.toNat) (Holds .u16 · c.blue.toNat))
    (hw : HasItem n "WaveformDataOffset" → ∃ w, p.waveform = some w ∧
      HasInt (basicPoint p ++ rest) "WavePacketDescriptorIndex" .u8 w.descriptorIndex.toNat ∧
      HasInt (basicPoint p ++ rest) "WaveformDataOffset" .u64 w.byteOffset.toNat ∧
      HasInt (basicPoint p ++ rest) "WaveformPacketSize" .u32 w.packetSize.toNat ∧
      HasSingle (basicPoint p ++ rest) "ReturnPointWaveformLocation" w.location ∧
      HasVector (basicPoint p ++ rest) "WaveformParameters" 4 (HoldsF32 · w.xT) (HoldsF32 · w.yT) (HoldsF32 · w.zT)) :
    ShowsCratePoint n p (basicPoint p ++ rest) where
  position := vector_holds rfl (write_length _ _) (write_length _ _) (write_length _ _) (holdsF64_write hp.x)
    (holdsF64_write hp.y) (holdsF64_write hp.z)
  intensity := ⟨_, rfl, uint_holds _ _ rfl rfl⟩
  returnNumber := ⟨_, rfl, uint_holds _ _ rfl rfl⟩
  numberOfReturns := ⟨_, rfl, uint_holds _ _ rfl rfl⟩
  scanDirection := by
    refine ⟨_, rfl, ?_⟩
    cases p.scanDirection <;> exact holds_write (by decide)
  edge := by
    refine ⟨_, rfl, ?_⟩
    cases p.isEdgeOfFlightLine <;> exact holds_write (by decide)
  classification := ⟨_, rfl, uint_holds _ _ rfl rfl⟩
  scanAngle := by
    refine ⟨_, ⟨_, rfl, holds_write (Voxel.toIntSat_range p.scanAngle (by decide) (by decide))⟩, fun hf h1 h2 => ?_⟩
    rw [toIntSat_eq usable_f32 _ hf]
    have h3 : -128 ≤ trunc (value p.scanAngle) ∧ trunc (value p.scanAngle) ≤ 127 := by
      unfold trunc
      split
      · rename_i hneg
        constructor
        · have := Int.lt_ceil (z := -129) (a := value p.scanAngle)
          have := this.2 (by exact_mod_cast h1)
          omega
        · have := Int.ceil_le (z := 0) (a := value p.scanAngle)
          have := this.2 (by exact_mod_cast hneg.le)
          omega
      · rename_i hneg
        constructor
        · have := Int.le_floor (z := 0) (a := value p.scanAngle)
          have := this.2 (by exact_mod_cast not_lt.1 hneg)
          omega
        · have := Int.floor_lt (z := 128) (a := value p.scanAngle)
          have := this.2 (by exact_mod_cast h2)
          omega
    omega
  userData := ⟨_, rfl, uint_holds _ _ rfl rfl⟩
  pointSourceId := ⟨_, rfl, uint_holds _ _ rfl rfl⟩
  gpsTime := hg
  color := hc
  waveform := hw

theorem gps_shows {p : CratePoint} (hp : CrateValid p) {q : Point}
    (h : valueNamed q "GpsTime" = some (writeNum .f64 (.double (p.gpsTime.getD (.zero .f64))))) :
    HasDouble q "GpsTime" (match p.gpsTime with
      | some t => t
      | none => ⟨false, 0⟩) := by
  refine ⟨_, h, ?_⟩
  cases e : p.gpsTime with
  | none => exact holdsF64_write (by decide)
  | some t => exact holdsF64_write (hp.gps t e)

theorem color_shows {c : CrateColor} {q : Point}
    (h : valueNamed q "ColorRGB" = some (writeNum .u16 (.int c.red.toNat) ++ writeNum .u16 (.int c.green.toNat) ++
      writeNum .u16 (.int c.blue.toNat))) :
    HasVector q "ColorRGB" 2 (Holds .u16 · c.red.toNat) (Holds .u16 · c.green.toNat) (Holds .u16 · c.blue.toNat) :=
  vector_holds h (write_length _ _) (write_length _ _) (write_length _ _) (uint_holds _ _ rfl rfl)
    (uint_holds _ _ rfl rfl) (uint_holds _ _ rfl rfl)

theorem layout_format {n : Nat} {f : Format} (hf : Format.new n = .ok f) :
    pointLayoutFromMetadata ⟨f, none⟩ false = .ok (packedLayout (writtenAttributes f)) := by
  obtain ⟨f', h1, _, h3⟩ := layouts_packed n (itemsOf_eq hf).2
  rw [hf] at h1
  cases h1
  exact h3

/-- From the values of the fields to the theorem. -/
theorem convert_format {n : Nat} {p : CratePoint} {f : Format} (hf : Format.new n = .ok f) {vs : List Bytes}
    (hv : p.toFields n = .ok vs) (hs : vs.map List.length = (writtenAttributes f).map AttrDef.size)
    (hq : ShowsCratePoint n p ((writtenAttributes f).zip vs)) :
    ∃ f l r, Format.new n = .ok f ∧ pointLayoutFromMetadata ⟨f, none⟩ false = .ok l ∧ p.toRecord n = .ok r ∧
      r.length = l.size ∧ ShowsCratePoint n p (pointOf l r) := by
  refine ⟨f, _, vs.flatten, hf, layout_format hf, ?_, flatten_size hs, ?_⟩
  · unfold CratePoint.toRecord
    rw [hv]
    rfl
  · rw [pointOf_packed hs]
    exact hq

/-- **C89**: a point of the `las` crate that has a colour, if the format has one, and wave packets, if the format has
    them, becomes a record in the default layout of the format (also the layout a reader gives points of such files) that
    shows the values of the point. -/
theorem C89_convert {n : Nat} (hn : n ≤ 5) (p : CratePoint) (hp : CrateValid p)
    (hc : HasItem n "ColorRGB" → p.color ≠ none) (hw : HasItem n "WaveformDataOffset" → p.waveform ≠ none) :
    ∃ f l r, Format.new n = .ok f ∧ pointLayoutFromMetadata ⟨f, none⟩ false = .ok l ∧ p.toRecord n = .ok r ∧
      r.length = l.size ∧ ShowsCratePoint n p (pointOf l r) := by
  have wave : ∀ {q : Point} {w : CrateWaveform}, p.waveform = some w →
      valueNamed q "WavePacketDescriptorIndex" = some (writeNum .u8 (.int w.descriptorIndex.toNat)) →
      valueNamed q "WaveformDataOffset" = some (writeNum .u64 (.int w.byteOffset.toNat)) →
      valueNamed q "WaveformPacketSize" = some (writeNum .u32 (.int w.packetSize.toNat)) →
      valueNamed q "ReturnPointWaveformLocation" = some (writeNum .f32 (.single w.location)) →
      valueNamed q "WaveformParameters" = some (writeNum .f32 (.single w.xT) ++ writeNum .f32 (.single w.yT) ++
        writeNum .f32 (.single w.zT)) →
      ∃ w, p.waveform = some w ∧
        HasInt q "WavePacketDescriptorIndex" .u8 w.descriptorIndex.toNat ∧
        HasInt q "WaveformDataOffset" .u64 w.byteOffset.toNat ∧ HasInt q "WaveformPacketSize" .u32 w.packetSize.toNat ∧
        HasSingle q "ReturnPointWaveformLocation" w.location ∧
        HasVector q "WaveformParameters" 4 (HoldsF32 · w.xT) (HoldsF32 · w.yT) (HoldsF32 · w.zT) := by
    intro q w e h1 h2 h3 h4 h5
    obtain ⟨g1, g2, g3, g4⟩ := hp.wave w e
    exact ⟨w, e, ⟨_, h1, uint_holds _ _ rfl rfl⟩, ⟨_, h2, uint_holds _ _ rfl rfl⟩, ⟨_, h3, uint_holds _ _ rfl rfl⟩,
      ⟨_, h4, holdsF32_write g1⟩, vector_holds h5 (write_length _ _) (write_length _ _) (write_length _ _)
        (holdsF32_write g2) (holdsF32_write g3) (holdsF32_write g4)⟩
  match n, hn with
  | 0, _ =>
    exact convert_format (f := format0) rfl rfl (by simp [CratePoint.basicValues, write_length]; rfl)
      (basic_shows (n := 0) hp [] (fun h => absurd h (by decide)) (fun h => absurd h (by decide)) (fun h => absurd h (by decide)))
  | 1, _ =>
    exact convert_format (f := ⟨true, false, false, false, false, 0, false⟩) rfl rfl
      (by simp [CratePoint.basicValues, CratePoint.gpsValues, write_length]; rfl)
      (basic_shows (n := 1) hp _ (fun _ => gps_shows hp rfl) (fun h => absurd h (by decide)) (fun h => absurd h (by decide)))
  | 2, _ =>
    obtain ⟨c, ec⟩ := Option.ne_none_iff_exists'.1 (hc (by decide))
    exact convert_format (f := ⟨false, true, false, false, false, 0, false⟩) rfl
      (show (expectSome p.color).bind _ = _ by rw [ec]; rfl)
      (by simp [CratePoint.basicValues, CratePoint.colorValues, write_length]; rfl)
      (basic_shows (n := 2) hp _ (fun h => absurd h (by decide)) (fun _ => ⟨c, ec, color_shows rfl⟩) (fun h => absurd h (by decide)))
  | 3, _ =>
    obtain ⟨c, ec⟩ := Option.ne_none_iff_exists'.1 (hc (by decide))
    exact convert_format (f := ⟨true, true, false, false, false, 0, false⟩) rfl
      (show (expectSome p.color).bind _ = _ by rw [ec]; rfl)
      (by simp [CratePoint.basicValues, CratePoint.gpsValues, CratePoint.colorValues, write_length]; rfl)
      (basic_shows (n := 3) hp _ (fun _ => gps_shows hp rfl) (fun _ => ⟨c, ec, color_shows rfl⟩) (fun h => absurd h (by decide)))
  | 4, _ =>
    obtain ⟨w, ew⟩ := Option.ne_none_iff_exists'.1 (hw (by decide))
    exact convert_format (f := ⟨true, false, false, true, false, 0, false⟩) rfl
      (show (expectSome p.waveform).bind _ = _ by rw [ew]; rfl)
      (by simp [CratePoint.basicValues, CratePoint.gpsValues, CratePoint.waveformValues, write_length]; rfl)
      (basic_shows (n := 4) hp _ (fun _ => gps_shows hp rfl) (fun h => absurd h (by decide)) (fun _ => wave ew rfl rfl rfl rfl rfl))
  | 5, _ =>
    obtain ⟨c, ec⟩ := Option.ne_none_iff_exists'.1 (hc (by decide))
    obtain ⟨w, ew⟩ := Option.ne_none_iff_exists'.1 (hw (by decide))
    exact convert_format (f := ⟨true, true, false, true, false, 0, false⟩) rfl
      (show (expectSome p.color).bind (fun color => (expectSome p.waveform).bind _) = _ by rw [ec, ew]; rfl)
      (by simp [CratePoint.basicValues, CratePoint.gpsValues, CratePoint.colorValues, CratePoint.waveformValues, write_length]; rfl)
      (basic_shows (n := 5) hp _ (fun _ => gps_shows hp rfl) (fun _ => ⟨c, ec, color_shows rfl⟩) (fun _ => wave ew rfl rfl rfl rfl rfl))

/-- **C89, missing parts**: a point without a colour or wave packets makes the conversion to a format that has them
    panic. A point without a time does not: its time is zero. -/
theorem C89_missing {n : Nat} (hn : n ≤ 5) (p : CratePoint)
    (h : (HasItem n "ColorRGB" ∧ p.color = none) ∨ (HasItem n "WaveformDataOffset" ∧ p.waveform = none)) :
    p.toRecord n = .error .panic := by
  match n, hn with
  | 0, _ => rcases h with h | h <;> exact absurd h.1 (by decide)
  | 1, _ => rcases h with h | h <;> exact absurd h.1 (by decide)
  | 2, _ =>
    rcases h with h | h
    · show ((expectSome p.color).bind _ : Out _).bind _ = _; rw [h.2]; rfl
    · exact absurd h.1 (by decide)
  | 3, _ =>
    rcases h with h | h
    · show ((expectSome p.color).bind _ : Out _).bind _ = _; rw [h.2]; rfl
    · exact absurd h.1 (by decide)
  | 4, _ =>
    rcases h with h | h
    · exact absurd h.1 (by decide)
    · show ((expectSome p.waveform).bind _ : Out _).bind _ = _; rw [h.2]; rfl
  | 5, _ =>
    show ((expectSome p.color).bind fun color => (expectSome p.waveform).bind _ : Out _).bind _ = _
    cases ec : p.color with
    | none => rfl
    | some c =>
      rcases h with h | h
      · rw [ec] at h; cases h.2
      · rw [h.2]; rfl

/-- A point with colour and wave packets, scan angle -17.75. -/
def cratePoint : CratePoint where
  x := .ofBits .f64 0x4008000000000000
  y := .ofBits .f64 0xc010000000000000
  z := .ofBits .f64 0x3fb999999999999a
  intensity := 700
  returnNumber := 2
  numberOfReturns := 3
  scanDirection := .leftToRight
  isEdgeOfFlightLine := true
  classification := 6
  scanAngle := .ofBits .f32 0xc18e0000
  userData := 9
  pointSourceId := 515
  gpsTime := none
  color := some ⟨1, 2, 65535⟩
  waveform := some ⟨1, 4096, 256, .ofBits .f32 0x3f800000, .ofBits .f32 0x40000000, .zero .f32, .ofBits .f32 0xbf800000⟩

/-- The theorem applies to it in every format; its angle becomes -17. -/
example : CrateValid cratePoint ∧ cratePoint.color ≠ none ∧ cratePoint.waveform ≠ none ∧
    cratePoint.scanAngle.toIntSat (-128) 127 = -17 ∧ { cratePoint with color := none }.toRecord 5 = .error .panic := by
  refine ⟨⟨by decide, by decide, by decide, (fun t h => by cases h), (fun w h => by cases h; decide)⟩, nofun, nofun,
    by decide +kernel, rfl⟩

end Pasture.Props
