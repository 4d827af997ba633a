import Verif.Spec.LasWriter
import Verif.Lemmas.LasReader
import Verif.Props.LasRecords

/-! # Lemmas: LAS writers -/

namespace Pasture.Las

open Spec BorrowedBuffer

/-! ## Streams -/

theorem write_at_end {a b t : Bytes} : (⟨a ++ t, a.length⟩ : Stream).write b = ⟨a ++ b ++ t.drop b.length, a.length + b.length⟩ := by
  unfold Stream.write
  simp [zeros, List.drop_append, List.drop_eq_nil_of_le]

theorem write_shape (s : Stream) (h : s.pos ≤ s.data.length) (b : Bytes) :
    s.write b = ⟨s.data.take s.pos ++ b ++ s.data.drop (s.pos + b.length), s.pos + b.length⟩ := by
  unfold Stream.write
  rw [Nat.sub_eq_zero_of_le h]
  simp [zeros]

theorem write_write {s : Stream} (h : s.pos ≤ s.data.length) (a b : Bytes) :
    (s.write a).write b = s.write (a ++ b) := by
  have e : s = ⟨s.data.take s.pos ++ s.data.drop s.pos, (s.data.take s.pos).length⟩ := by
    cases s; simp at h ⊢; exact h
  rw [e, write_at_end]
  generalize s.data.take s.pos = x
  generalize s.data.drop s.pos = y
  have := write_at_end (a := x ++ a) (b := b) (t := y.drop a.length)
  rw [List.length_append] at this
  rw [this, write_at_end]
  simp [Nat.add_assoc]

theorem write_nil {s : Stream} (h : s.pos ≤ s.data.length) : s.write [] = s := by
  rw [write_shape s h]; simp

theorem write_inside {s : Stream} (h : s.pos ≤ s.data.length) (b : Bytes) :
    (s.write b).pos ≤ (s.write b).data.length := by
  rw [write_shape s h]
  simp
  omega

/-! ## One record -/

/-- The values read for a point are those of the specification. -/
def Reads (f : Format) (p : Point) (v : LasValues) : Prop :=
  ∀ d ∈ writtenAttributes f, ∃ b, v.lookup d = some b ∧ lasValue p d.name = some b

theorem reads_value {f : Format} {p : Point} {v : LasValues} (h : Reads f p v) {d : AttrDef}
    (hd : d ∈ writtenAttributes f) : ∃ b, v.value d = .ok b ∧ lasValue p d.name = some b := by
  obtain ⟨b, h1, h2⟩ := h d hd
  refine ⟨b, ?_, h2⟩
  unfold LasValues.value
  rw [h1]
  rfl

theorem storedPosition_eq (t : Transforms) (p : P3 F64) : localPositionBytes t p = answer (storedPosition t p) := by
  have hq : ∀ (a : Axis) (x : F64), quantize a x = .error .panic ∨ ∃ z, quantize a x = .ok z := by
    intro a x
    unfold quantize
    dsimp only
    split
    · exact .inr ⟨_, rfl⟩
    · exact .inl rfl
  unfold localPositionBytes storedPosition storedCoordinate
  rcases hq t.x p.x with h1 | ⟨x, h1⟩ <;> rcases hq t.y p.y with h2 | ⟨y, h2⟩ <;> rcases hq t.z p.z with h3 | ⟨z, h3⟩ <;>
    rw [h1, h2, h3] <;> rfl

theorem byte_mod (b : Bytes) {k : Nat} (hk : k ≤ 8) : (BitVec.ofNat 8 (leNat b)).toNat % 2 ^ k = leNat b % 2 ^ k := by
  rw [BitVec.toNat_ofNat, Nat.mod_mod_of_dvd _ (Nat.pow_dvd_pow 2 hk)]

theorem natLE_one (x : BitVec 8) : natLE 1 x.toNat = [x] := by
  unfold natLE
  simp [natLE]

theorem flags_basic {p : Point} {r n d e : Bytes} (hr : lasValue p "ReturnNumber" = some r)
    (hn : lasValue p "NumberOfReturns" = some n) (hd : lasValue p "ScanDirectionFlag" = some d)
    (he : lasValue p "EdgeOfFlightLine" = some e) :
    packBits 1 packedBasic p = some (packRegular ⟨.ofNat 8 (leNat r), .ofNat 8 (leNat n), .ofNat 8 (leNat d), .ofNat 8 (leNat e)⟩) := by
  obtain ⟨x, h1, h2⟩ := Props.C35_basic_flags ⟨.ofNat 8 (leNat r), .ofNat 8 (leNat n), .ofNat 8 (leNat d), .ofNat 8 (leNat e)⟩
  rw [h1, ← natLE_one x, h2]
  dsimp only
  rw [byte_mod _ (by omega), byte_mod _ (by omega), byte_mod _ (by omega), byte_mod _ (by omega)]
  unfold packBits packedBasic
  simp only [List.mapM_cons, List.mapM_nil, hr, hn, hd, he, Option.map_some, bind, Option.bind, pure]
  simp [Nat.add_assoc]

theorem flags_extended {p : Point} {r n c s d e : Bytes} (hr : lasValue p "ReturnNumber" = some r)
    (hn : lasValue p "NumberOfReturns" = some n) (hc : lasValue p "ClassificationFlags" = some c)
    (hs : lasValue p "ScannerChannel" = some s) (hd : lasValue p "ScanDirectionFlag" = some d)
    (he : lasValue p "EdgeOfFlightLine" = some e) :
    packBits 2 packedExtended p = some (packExtended ⟨.ofNat 8 (leNat r), .ofNat 8 (leNat n), .ofNat 8 (leNat c),
      .ofNat 8 (leNat s), .ofNat 8 (leNat d), .ofNat 8 (leNat e)⟩) := by
  obtain ⟨h1, h2⟩ := Props.C35_extended_flags ⟨.ofNat 8 (leNat r), .ofNat 8 (leNat n), .ofNat 8 (leNat c),
      .ofNat 8 (leNat s), .ofNat 8 (leNat d), .ofNat 8 (leNat e)⟩
  rw [← natLE_leNat (packExtended _), h1, h2]
  dsimp only
  rw [byte_mod _ (by omega), byte_mod _ (by omega), byte_mod _ (by omega), byte_mod _ (by omega), byte_mod _ (by omega),
    byte_mod _ (by omega)]
  unfold packBits packedExtended
  simp only [List.mapM_cons, List.mapM_nil, hr, hn, hc, hs, hd, he, Option.map_some, bind, Option.bind, pure]
  simp [Nat.add_assoc]

/-- The items of a record, by the optional parts of the format. -/
def itemsOf (f : Format) : List (String × Nat) :=
  [("LASLocalPosition", 12), ("Intensity", 2)]
    ++ (if f.isExtended then [("LASExtendedFlags", 2), ("Classification", 1), ("UserData", 1), ("ScanAngle", 2)]
        else [("LASBasicFlags", 1), ("Classification", 1), ("ScanAngleRank", 1), ("UserData", 1)])
    ++ [("PointSourceID", 2)]
    ++ (if f.hasGpsTime then [("GpsTime", 8)] else [])
    ++ (if f.hasColor then [("ColorRGB", 6)] else [])
    ++ (if f.hasNir then [("NIR", 2)] else [])
    ++ (if f.hasWaveform then wavePackets else [])

theorem itemsOf_eq {n : Nat} {f : Format} (h : Format.new n = .ok f) : lasItems n = itemsOf f ∧ n ≤ 10 := by
  have hn : n ≤ 10 := by
    by_contra hc
    unfold Format.new at h
    rw [if_pos (by omega)] at h
    cases h
  refine ⟨?_, hn⟩
  have key : ∀ n : Fin 11, ∀ f, Format.new n = .ok f → lasItems n = itemsOf f := by
    intro n f h
    match n with
    | 0 | 1 | 2 | 3 | 4 | 5 | 6 | 7 | 8 | 9 | 10 => cases h; rfl
  exact key ⟨n, by omega⟩ f h

/-- The optional attributes of a format. -/
theorem optional_eq {f : Format} {p : Point} {v : LasValues} (hv : Reads f p v) (t : Transforms) (has : Bool)
    (ds : List AttrDef) (hds : has = true → ∀ d ∈ ds, d ∈ writtenAttributes f)
    (hplain : ∀ d ∈ ds, storedItem t p d.name = lasValue p d.name) :
    ∃ bs : List Bytes, optionalBytes has ds v = .ok bs.flatten ∧
      (if has then ds.map (fun d => (d.name, d.size)) else []).mapM (fun item => storedItem t p item.1) = some bs := by
  cases has with
  | false => exact ⟨[], rfl, rfl⟩
  | true =>
    have key : ∀ ds : List AttrDef, (∀ d ∈ ds, d ∈ writtenAttributes f) →
        (∀ d ∈ ds, storedItem t p d.name = lasValue p d.name) →
        ∃ bs : List Bytes, ds.mapM v.value = .ok bs ∧
          (ds.map (fun d => (d.name, d.size))).mapM (fun item => storedItem t p item.1) = some bs := by
      intro ds
      induction ds with
      | nil => intro _ _; exact ⟨[], rfl, rfl⟩
      | cons d ds ih =>
        intro h1 h2
        obtain ⟨bs, h3, h4⟩ := ih (fun x hx => h1 x (by simp [hx])) (fun x hx => h2 x (by simp [hx]))
        obtain ⟨b, h5, h6⟩ := reads_value hv (h1 d (by simp))
        refine ⟨b :: bs, ?_, ?_⟩
        · rw [List.mapM_cons, h5, h3]; rfl
        · rw [List.map_cons, List.mapM_cons, h2 d (by simp), h6, h4]; rfl
    obtain ⟨bs, h1, h2⟩ := key ds (hds rfl) hplain
    refine ⟨bs, ?_, h2⟩
    unfold optionalBytes
    rw [if_pos rfl, h1]
    rfl

theorem mem_written (f : Format) :
    (∀ d ∈ [position3D, intensity, returnNumber, numberOfReturns, scanDirectionFlag, edgeOfFlightLine, classification,
      userData, pointSourceId], d ∈ writtenAttributes f) ∧
    (f.isExtended = true → ∀ d ∈ [classificationFlags, scannerChannel, scanAngle], d ∈ writtenAttributes f) ∧
    (f.isExtended = false → scanAngleRank ∈ writtenAttributes f) ∧
    (f.hasGpsTime = true → ∀ d ∈ [gpsTime], d ∈ writtenAttributes f) ∧
    (f.hasColor = true → ∀ d ∈ [colorRgb], d ∈ writtenAttributes f) ∧
    (f.hasNir = true → ∀ d ∈ [nir], d ∈ writtenAttributes f) ∧
    (f.hasWaveform = true → ∀ d ∈ [wavePacketDescriptorIndex, waveformDataOffset, waveformPacketSize,
        returnPointWaveformLocation, waveformParameters], d ∈ writtenAttributes f) := by
  obtain ⟨g, c, e, w, r, x, z⟩ := f
  have key : ∀ g c e w r : Bool, let f : Format := ⟨g, c, e, w, r, 0, false⟩
    (∀ d ∈ [position3D, intensity, returnNumber, numberOfReturns, scanDirectionFlag, edgeOfFlightLine, classification,
      userData, pointSourceId], d ∈ writtenAttributes f) ∧
    (f.isExtended = true → ∀ d ∈ [classificationFlags, scannerChannel, scanAngle], d ∈ writtenAttributes f) ∧
    (f.isExtended = false → scanAngleRank ∈ writtenAttributes f) ∧
    (f.hasGpsTime = true → ∀ d ∈ [gpsTime], d ∈ writtenAttributes f) ∧
    (f.hasColor = true → ∀ d ∈ [colorRgb], d ∈ writtenAttributes f) ∧
    (f.hasNir = true → ∀ d ∈ [nir], d ∈ writtenAttributes f) ∧
    (f.hasWaveform = true → ∀ d ∈ [wavePacketDescriptorIndex, waveformDataOffset, waveformPacketSize,
        returnPointWaveformLocation, waveformParameters], d ∈ writtenAttributes f) := by decide +kernel
  exact key g c e w r

/-- The record written for a point is the one of the specification; a position that cannot be stored is the
    only obstacle. -/
theorem lasRecord_eq {n : Nat} {f : Format} (hf : Format.new n = .ok f) (t : Transforms) {p : Point} {v : LasValues}
    (hv : Reads f p v) : lasRecord f t v = answer (storedRecord n t p) := by
  obtain ⟨m1, m2, m3, m4, m5, m6, m7⟩ := mem_written f
  obtain ⟨pos, a1, b1⟩ := reads_value hv (m1 position3D (by decide))
  obtain ⟨i, a2, b2⟩ := reads_value hv (m1 intensity (by decide))
  obtain ⟨rn, a3, b3⟩ := reads_value hv (m1 returnNumber (by decide))
  obtain ⟨nr, a4, b4⟩ := reads_value hv (m1 numberOfReturns (by decide))
  obtain ⟨sd, a5, b5⟩ := reads_value hv (m1 scanDirectionFlag (by decide))
  obtain ⟨ef, a6, b6⟩ := reads_value hv (m1 edgeOfFlightLine (by decide))
  obtain ⟨c, a7, b7⟩ := reads_value hv (m1 classification (by decide))
  obtain ⟨u, a8, b8⟩ := reads_value hv (m1 userData (by decide))
  obtain ⟨src, a9, b9⟩ := reads_value hv (m1 pointSourceId (by decide))
  obtain ⟨g, ag, bg⟩ := optional_eq hv t f.hasGpsTime _ m4 (by intro d hd; simp at hd; subst hd; rfl)
  obtain ⟨co, ac, bc⟩ := optional_eq hv t f.hasColor _ m5 (by intro d hd; simp at hd; subst hd; rfl)
  obtain ⟨ni, an, bn⟩ := optional_eq hv t f.hasNir _ m6 (by intro d hd; simp at hd; subst hd; rfl)
  obtain ⟨wv, aw, bw⟩ := optional_eq hv t f.hasWaveform _ m7
    (by intro d hd; simp only [List.mem_cons, List.not_mem_nil, or_false] at hd; rcases hd with h | h | h | h | h <;> subst h <;> rfl)
  have hpos : storedItem t p "LASLocalPosition" = storedPosition t (readVec3F64 pos) := by
    show (lasPosition p).bind (storedPosition t) = _
    unfold lasPosition
    rw [show lasValue p "Position3D" = some pos from b1]
    rfl
  have e2 : storedItem t p "Intensity" = some i := b2
  have e7 : storedItem t p "Classification" = some c := b7
  have e8 : storedItem t p "UserData" = some u := b8
  have e9 : storedItem t p "PointSourceID" = some src := b9
  have bw' : (if f.hasWaveform then wavePackets else []).mapM (fun item => storedItem t p item.1) = some wv := bw
  have bg' : (if f.hasGpsTime then [("GpsTime", 8)] else []).mapM (fun item => storedItem t p item.1) = some g := bg
  have bc' : (if f.hasColor then [("ColorRGB", 6)] else []).mapM (fun item => storedItem t p item.1) = some co := bc
  have bn' : (if f.hasNir then [("NIR", 2)] else []).mapM (fun item => storedItem t p item.1) = some ni := bn
  unfold lasRecord storedRecord
  rw [(itemsOf_eq hf).1]
  unfold itemsOf
  simp only [List.mapM_append, bw', bg', bc', bn', List.mapM_cons, List.mapM_nil, hpos, e2, e9, a1, a2, a7, a8, a9, ag, ac, an, aw]
  have hbyte : ∀ {d : AttrDef} {b : Bytes}, v.value d = .ok b → v.byte d = .ok (BitVec.ofNat 8 (leNat b)) := by
    intro d b h
    unfold LasValues.byte
    rw [h]
    rfl
  unfold flagBytes
  rw [hbyte a3, hbyte a4, hbyte a5, hbyte a6]
  cases hx : f.isExtended with
  | true =>
    obtain ⟨cf, a10, b10⟩ := reads_value hv (m2 hx classificationFlags (by decide))
    obtain ⟨sc, a11, b11⟩ := reads_value hv (m2 hx scannerChannel (by decide))
    obtain ⟨sa, a12, b12⟩ := reads_value hv (m2 hx scanAngle (by decide))
    have e10 : storedItem t p "LASExtendedFlags" = _ := flags_extended b3 b4 b10 b11 b5 b6
    have e12 : storedItem t p "ScanAngle" = some sa := b12
    rw [hbyte a10, hbyte a11, a12]
    simp only [if_true, List.mapM_cons, List.mapM_nil, e10, e7, e8, e12]
    show (localPositionBytes t (readVec3F64 pos)).bind _ = _
    rw [storedPosition_eq]
    cases storedPosition t (readVec3F64 pos) with
    | none => rfl
    | some b =>
      simp only [answer, Except.bind, bind, Option.bind, pure, Except.pure, Option.map_some]
      simp [List.flatten_append]
  | false =>
    obtain ⟨sa, a12, b12⟩ := reads_value hv (m3 hx)
    have e10 : storedItem t p "LASBasicFlags" = _ := flags_basic b3 b4 b5 b6
    have e12 : storedItem t p "ScanAngleRank" = some sa := b12
    rw [a12]
    simp only [Bool.false_eq_true, if_false, List.mapM_cons, List.mapM_nil, e10, e7, e8, e12]
    show (localPositionBytes t (readVec3F64 pos)).bind _ = _
    rw [storedPosition_eq]
    cases storedPosition t (readVec3F64 pos) with
    | none => rfl
    | some b =>
      simp only [answer, Except.bind, bind, Option.bind, pure, Except.pure, Option.map_some]
      simp [List.flatten_append]

/-- Storable points have all the values. -/
theorem written_covered (f : Format) : ∀ d ∈ writtenAttributes f,
    lasTypes.lookup d.name = some d.datatype ∧
    ((d.name ∈ (itemsOf f).map Prod.fst ∧ d.name ∉ ["LASLocalPosition", "LASBasicFlags", "LASExtendedFlags"]) ∨
      (d.name = "Position3D" ∧ "LASLocalPosition" ∈ (itemsOf f).map Prod.fst) ∨
      (d.name ∈ packedBasic.map Prod.fst ∧ "LASBasicFlags" ∈ (itemsOf f).map Prod.fst) ∨
      (d.name ∈ packedExtended.map Prod.fst ∧ "LASExtendedFlags" ∈ (itemsOf f).map Prod.fst)) := by
  obtain ⟨g, c, e, w, r, x, z⟩ := f
  have key : ∀ g c e w r : Bool, let f : Format := ⟨g, c, e, w, r, 0, false⟩
    ∀ d ∈ writtenAttributes f, lasTypes.lookup d.name = some d.datatype ∧
    ((d.name ∈ (itemsOf f).map Prod.fst ∧ d.name ∉ ["LASLocalPosition", "LASBasicFlags", "LASExtendedFlags"]) ∨
      (d.name = "Position3D" ∧ "LASLocalPosition" ∈ (itemsOf f).map Prod.fst) ∨
      (d.name ∈ packedBasic.map Prod.fst ∧ "LASBasicFlags" ∈ (itemsOf f).map Prod.fst) ∨
      (d.name ∈ packedExtended.map Prod.fst ∧ "LASExtendedFlags" ∈ (itemsOf f).map Prod.fst)) := by decide +kernel
  exact key g c e w r

theorem mapM_some_mem {α γ : Type} {f : α → Option γ} : ∀ {xs : List α} {ys : List γ}, xs.mapM f = some ys →
    ∀ x ∈ xs, ∃ y, f x = some y
  | [], _, _, x, hx => by simp at hx
  | a :: xs, ys, h, x, hx => by
    rw [List.mapM_cons] at h
    cases ha : f a with
    | none => rw [ha] at h; cases h
    | some b =>
      rw [ha] at h
      cases hxs : xs.mapM f with
      | none => rw [hxs] at h; cases h
      | some bs =>
        rcases List.mem_cons.1 hx with e | e
        · subst e; exact ⟨b, ha⟩
        · exact mapM_some_mem hxs x e

theorem mapM_length {α γ : Type} {f : α → Option γ} : ∀ {xs : List α} {ys : List γ}, xs.mapM f = some ys →
    ys.length = xs.length
  | [], _, h => by cases h; rfl
  | a :: xs, ys, h => by
    rw [List.mapM_cons] at h
    obtain ⟨b, hb, h⟩ := Option.bind_eq_some_iff.1 h
    obtain ⟨bs, hbs, h⟩ := Option.bind_eq_some_iff.1 h
    cases h
    rw [List.length_cons, List.length_cons, mapM_length hbs]

theorem mapM_getElem {α γ : Type} {f : α → Option γ} : ∀ {xs : List α} {ys : List γ}, xs.mapM f = some ys →
    ∀ {i : Nat} {x : α}, xs[i]? = some x → ∃ y, ys[i]? = some y ∧ f x = some y
  | [], _, _, i, x, hx => by simp at hx
  | a :: xs, ys, h, i, x, hx => by
    rw [List.mapM_cons] at h
    obtain ⟨b, hb, h⟩ := Option.bind_eq_some_iff.1 h
    obtain ⟨bs, hbs, h⟩ := Option.bind_eq_some_iff.1 h
    cases h
    cases i with
    | zero => cases hx; exact ⟨b, rfl, hb⟩
    | succ i => exact mapM_getElem hbs (i := i) hx

theorem storedRecord_values {n : Nat} {f : Format} (hf : Format.new n = .ok f) {t : Transforms} {p : Point} {r : Bytes}
    (h : storedRecord n t p = some r) {d : AttrDef} (hd : d ∈ writtenAttributes f) : ∃ b, lasValue p d.name = some b := by
  unfold storedRecord at h
  rw [(itemsOf_eq hf).1] at h
  obtain ⟨bs, h1, _⟩ := Option.map_eq_some_iff.1 h
  have item : ∀ name ∈ (itemsOf f).map Prod.fst, ∃ b, storedItem t p name = some b := by
    intro name hname
    obtain ⟨it, h2, rfl⟩ := List.mem_map.1 hname
    exact mapM_some_mem h1 it h2
  have bits : ∀ size fields, (∃ b, packBits size fields p = some b) → ∀ name ∈ fields.map Prod.fst, ∃ b, lasValue p name = some b := by
    intro size fields hb name hname
    obtain ⟨fd, h2, rfl⟩ := List.mem_map.1 hname
    obtain ⟨b, hb⟩ := hb
    unfold packBits at hb
    obtain ⟨parts, h3, _⟩ := Option.bind_eq_some_iff.1 hb
    obtain ⟨y, hy⟩ := mapM_some_mem h3 fd h2
    obtain ⟨z, hz, _⟩ := Option.map_eq_some_iff.1 hy
    exact ⟨z, hz⟩
  rcases (written_covered f d hd).2 with ⟨h2, h3⟩ | ⟨h2, h3⟩ | ⟨h2, h3⟩ | ⟨h2, h3⟩
  · obtain ⟨b, hb⟩ := item _ h2
    simp only [List.mem_cons, List.not_mem_nil, or_false, not_or] at h3
    unfold storedItem at hb
    rw [if_neg h3.1, if_neg h3.2.1, if_neg h3.2.2] at hb
    exact ⟨b, hb⟩
  · obtain ⟨b, hb⟩ := item _ h3
    obtain ⟨q, hq, _⟩ := Option.bind_eq_some_iff.1 (show (lasPosition p).bind (storedPosition t) = some b from hb)
    obtain ⟨z, hz, _⟩ := Option.map_eq_some_iff.1 hq
    exact ⟨z, h2 ▸ hz⟩
  · exact bits 1 packedBasic (item _ h3) _ h2
  · exact bits 2 packedExtended (item _ h3) _ h2

/-! ## Reading the values of a point -/

theorem find_pointOf (l : PointLayout) (r : Bytes) (name : String) :
    (pointOf l r).find? (fun a => a.1.name = name) =
      (l.getAttributeByName name).map fun m => (m.definition, window r m.offset m.size) := by
  unfold pointOf PointLayout.getAttributeByName
  rw [List.find?_map]
  rfl

theorem lasValue_none {l : PointLayout} {r : Bytes} {name : String} {type : DataType} (ht : lasTypes.lookup name = some type)
    (h : l.getAttributeByName name = none) : lasValue (pointOf l r) name = some (zeros type.size) := by
  unfold lasValue
  rw [ht, find_pointOf, h]
  rfl

theorem lasValue_some {l : PointLayout} {r : Bytes} {name : String} {type : DataType} (ht : lasTypes.lookup name = some type)
    {m : Member} (h : l.getAttributeByName name = some m) :
    lasValue (pointOf l r) name = (conversion m.datatype type).map fun f => f (window r m.offset m.size) := by
  unfold lasValue
  rw [ht, find_pointOf, h]
  rfl

theorem conversion_same' (a : DataType) : conversion a a = some id := by unfold conversion; rw [if_pos rfl]

/-- Attributes one after another from `o` to `e`. -/
def Consecutive : Nat → List Member → Nat → Prop
  | o, [], e => o = e
  | o, m :: ms, e => m.offset = o ∧ Consecutive (o + m.size) ms e

instance decidableConsecutive : ∀ (o : Nat) (ms : List Member) (e : Nat), Decidable (Consecutive o ms e)
  | o, [], e => inferInstanceAs (Decidable (o = e))
  | o, m :: ms, e =>
    have := decidableConsecutive (o + m.size) ms e
    inferInstanceAs (Decidable (_ ∧ _))

theorem consecutive_le : ∀ {ms : List Member} {o e : Nat}, Consecutive o ms e → o ≤ e
  | [], _, _, h => Nat.le_of_eq h
  | m :: ms, o, e, h => by have := consecutive_le h.2; omega

theorem readValues_eq (r rest : Bytes) : ∀ (ms : List Member) (o e : Nat), Consecutive o ms e → e ≤ r.length →
    readValues (ms.map Member.definition) (r.drop o ++ rest) =
      .ok (ms.map fun m => (m.definition, window r m.offset m.size), r.drop e ++ rest)
  | [], o, e, h, _ => by cases (show o = e from h); rfl
  | m :: ms, o, e, ⟨h1, h2⟩, he => by
    have hle := consecutive_le h2
    have ih := readValues_eq r rest ms (o + m.size) e h2 he
    have hr : readExact m.definition.size (r.drop o ++ rest) = .ok (window r m.offset m.size, r.drop (o + m.size) ++ rest) := by
      unfold readExact
      have hs : m.definition.size = m.size := rfl
      rw [hs, if_pos (by simp; omega), List.take_append_of_le_length (by simp; omega),
        List.drop_append_of_le_length (by simp; omega), List.drop_drop, h1]
      rfl
    show (readExact m.definition.size (r.drop o ++ rest)).bind _ = _
    rw [hr]
    show (readValues (ms.map Member.definition) (r.drop (o + m.size) ++ rest)).bind _ = _
    rw [ih]
    rfl

/-- The layout has the written attributes, one after another, and nothing else. -/
def DefaultFor (f : Format) (l : PointLayout) : Prop :=
  l.attributes.map Member.definition = writtenAttributes f ∧ Consecutive 0 l.attributes l.size

instance decidableDefaultFor (f : Format) (l : PointLayout) : Decidable (DefaultFor f l) := inferInstanceAs (Decidable (_ ∧ _))

theorem readValues_point {f : Format} {l : PointLayout} (hd : DefaultFor f l) {r : Bytes} (hr : r.length = l.size) (rest : Bytes) :
    readValues (writtenAttributes f) (r ++ rest) = .ok (pointOf l r, rest) := by
  have := readValues_eq r rest l.attributes 0 l.size hd.2 (by omega)
  rw [hd.1] at this
  rw [show r.drop 0 = r from rfl, List.drop_eq_nil_of_le (by omega : r.length ≤ l.size)] at this
  exact this

theorem lookup_map_def {ms : List Member} {g : Member → Bytes} {m : Member} (hm : m ∈ ms)
    (hn : (ms.map Member.name).Nodup) : (ms.map fun m => (m.definition, g m)).lookup m.definition = some (g m) := by
  induction ms with
  | nil => simp at hm
  | cons a ms ih =>
    rw [List.map_cons, List.lookup_cons]
    rw [List.map_cons, List.nodup_cons] at hn
    rcases List.mem_cons.1 hm with e | e
    · subst e; simp
    · have hne : (m.definition == a.definition) = false := by
        rw [beq_eq_false_iff_ne]
        intro h
        exact hn.1 (List.mem_map.2 ⟨m, e, congrArg AttrDef.name h⟩)
      rw [hne]
      exact ih e hn.2

theorem reads_default {f : Format} {l : PointLayout} (hd : DefaultFor f l) (hl : Solid l) (r : Bytes) :
    Reads f (pointOf l r) (pointOf l r) := by
  intro d hdm
  have ht := (written_covered f d hdm).1
  rw [← hd.1] at hdm
  obtain ⟨m, hm, rfl⟩ := List.mem_map.1 hdm
  refine ⟨window r m.offset m.size, lookup_map_def (g := fun m => window r m.offset m.size) hm hl.names, ?_⟩
  rw [lasValue_some ht ((Props.getByName_iff l hl.names m.name m).2 ⟨hm, rfl⟩)]
  rw [show m.definition.datatype = m.datatype from rfl, conversion_same']
  rfl

theorem getConverter_ne {a b : AttrDef} (hn : a.name = b.name) (h : a.datatype ≠ b.datatype) :
    getConverterForAttributes a b = getGenericConverter a.datatype b.datatype := by
  unfold getConverterForAttributes
  rw [assertThat_true (decide_eq_true hn), if_neg h]
  rfl

/-- A reader for one attribute. -/
theorem attributeReader_spec {l : PointLayout} (hl : Solid l) {d : AttrDef} (hd : lasTypes.lookup d.name = some d.datatype) :
    (∃ rd, attributeReader l d = .ok rd ∧ ∀ (recs : List Bytes) (rest : Bytes) (i : Nat) (r : Bytes),
      AllLen l.size recs → recs[i]? = some r →
        ∃ b, rd i (recs.flatten ++ rest) = .ok b ∧ lasValue (pointOf l r) d.name = some b) ∨
    (attributeReader l d = .error .panic ∧ ∀ r, lasValue (pointOf l r) d.name = none) := by
  unfold attributeReader
  cases hm : l.getAttributeByName d.name with
  | none =>
    left
    refine ⟨_, rfl, ?_⟩
    intro recs rest i r _ _
    exact ⟨_, rfl, lasValue_none hd hm⟩
  | some m =>
    have hmem := ((Props.getByName_iff l hl.names d.name m).1 hm).1
    have hname : m.definition.name = d.name := ((Props.getByName_iff l hl.names d.name m).1 hm).2
    have hin := hl.inside m hmem
    have hwin : ∀ (recs : List Bytes) (rest : Bytes) (i : Nat) (r : Bytes), AllLen l.size recs → recs[i]? = some r →
        i * l.size + m.offset + m.size ≤ recs.flatten.length ∧
        window (recs.flatten ++ rest) (i * l.size + m.offset) m.size = window r m.offset m.size := by
      intro recs rest i r hall hi
      have hil : i < recs.length := (List.getElem?_eq_some_iff.1 hi).1
      have hb := Interleaved.block_end_le (sz := l.size) hil
      have hle : i * l.size + m.offset + m.size ≤ recs.flatten.length := by
        rw [hall.flatten_length]; omega
      refine ⟨hle, ?_⟩
      have h1 := window_flatten hall hi m.offset m.size hin
      rw [← h1]
      unfold window
      rw [List.drop_append_of_le_length (by omega), List.take_append_of_le_length (by rw [List.length_drop]; omega)]
    dsimp only
    by_cases ht : m.datatype = d.datatype
    · rw [if_pos ht]
      left
      refine ⟨_, rfl, ?_⟩
      intro recs rest i r hall hi
      obtain ⟨h1, h2⟩ := hwin recs rest i r hall hi
      refine ⟨window r m.offset m.size, ?_, ?_⟩
      · have hs : d.size = m.size := by
          show d.datatype.size = m.definition.datatype.size
          rw [← ht]; rfl
        show (readExact d.size _).bind _ = _
        unfold readExact
        rw [hs, if_pos (by rw [List.length_drop, List.length_append]; omega)]
        show Except.ok (window (recs.flatten ++ rest) (i * l.size + m.offset) m.size) = _
        rw [h2]
      · rw [lasValue_some hd hm, ht, conversion_same']
        rfl
    · rw [if_neg ht]
      have hne : m.definition.datatype ≠ d.datatype := ht
      cases hc : conversion m.datatype d.datatype with
      | none =>
        right
        refine ⟨?_, ?_⟩
        · show (getConverterForAttributes m.definition d).bind _ = _
          rw [getConverter_ne hname hne, (generic_spec hne).1 hc]
          rfl
        · intro r
          rw [lasValue_some hd hm, hc]
          rfl
      | some g =>
        left
        obtain ⟨c, h3, h4⟩ := (generic_spec hne).2 g hc
        refine ⟨fun i chunk => do
          let start := i * l.size + m.offset
          let s ← sliceGet chunk start (start + m.size)
          c.run s (zeros d.size), ?_, ?_⟩
        · show (getConverterForAttributes m.definition d).bind _ = _
          rw [getConverter_ne hname hne, h3]
          rfl
        · intro recs rest i r hall hi
          obtain ⟨h1, h2⟩ := hwin recs rest i r hall hi
          refine ⟨g (window r m.offset m.size), ?_, ?_⟩
          · show (sliceGet (recs.flatten ++ rest) (i * l.size + m.offset) (i * l.size + m.offset + m.size)).bind _ = _
            rw [sliceGet_ok (by rw [List.length_append]; omega), h2]
            refine h4.run _ _ ?_ (by simp [zeros]; rfl)
            unfold window
            have := hall.getElem hi
            rw [List.length_take, List.length_drop]
            show min m.size _ = m.size
            omega
          · rw [lasValue_some hd hm, hc]
            rfl

/-- The readers for all attributes. -/
theorem attributeReaders_spec {l : PointLayout} (hl : Solid l) {f : Format} {r0 : Bytes}
    (h0 : ∀ d ∈ writtenAttributes f, ∃ b, lasValue (pointOf l r0) d.name = some b) :
    ∃ readers, attributeReaders l f = .ok readers ∧ ∀ (recs : List Bytes) (rest : Bytes) (i : Nat) (r : Bytes),
      AllLen l.size recs → recs[i]? = some r →
        ∃ v, runReaders readers i (recs.flatten ++ rest) = .ok v ∧ Reads f (pointOf l r) v := by
  have key : ∀ ds : List AttrDef, (∀ d ∈ ds, d ∈ writtenAttributes f) →
      ∃ readers, (ds.mapM fun d => do
          let r ← attributeReader l d
          pure (d, r)) = .ok readers ∧ ∀ (recs : List Bytes) (rest : Bytes) (i : Nat) (r : Bytes),
        AllLen l.size recs → recs[i]? = some r →
        ∃ v, runReaders readers i (recs.flatten ++ rest) = .ok v ∧
          ∀ d ∈ ds, ∃ b, v.lookup d = some b ∧ lasValue (pointOf l r) d.name = some b := by
    intro ds
    induction ds with
    | nil => intro _; exact ⟨[], rfl, fun _ _ _ _ _ _ => ⟨[], rfl, by simp⟩⟩
    | cons d ds ih =>
      intro hds
      obtain ⟨rs, h1, h2⟩ := ih fun x hx => hds x (by simp [hx])
      have hd := hds d (by simp)
      rcases attributeReader_spec hl (written_covered f d hd).1 with ⟨rd, h3, h4⟩ | ⟨_, h4⟩
      · refine ⟨(d, rd) :: rs, ?_, ?_⟩
        · rw [List.mapM_cons, h3, h1]; rfl
        · intro recs rest i r hall hi
          obtain ⟨v, h5, h6⟩ := h2 recs rest i r hall hi
          obtain ⟨b, h7, h8⟩ := h4 recs rest i r hall hi
          refine ⟨(d, b) :: v, ?_, ?_⟩
          · unfold runReaders at h5 ⊢
            rw [List.mapM_cons, h5]
            dsimp only
            rw [h7]
            rfl
          · intro x hx
            rw [List.lookup_cons]
            by_cases hxd : x = d
            · subst hxd
              exact ⟨b, by simp, h8⟩
            · rw [beq_eq_false_iff_ne.2 hxd]
              rcases List.mem_cons.1 hx with e | e
              · exact absurd e hxd
              · exact h6 x e
      · obtain ⟨b, hb⟩ := h0 d hd
        rw [h4] at hb
        cases hb
  exact key _ fun _ h => h

/-! ## The loop over the points of a chunk -/

theorem updateBounds_transforms (h : LasHeader) (p : P3 F64) : (h.updateBounds p).transforms = h.transforms := rfl

/-- The world position of a point, for the header. -/
def posOf (p : Point) : P3 F64 :=
  match lasPosition p with
  | some q => q
  | none => ⟨.zero .f64, .zero .f64, .zero .f64⟩

/-- The header after its bounds were extended by the points. -/
def boundedBy (h : LasHeader) (ps : List Point) : LasHeader := ps.foldl (fun h p => h.updateBounds (posOf p)) h

theorem boundedBy_fields (h : LasHeader) (ps : List Point) :
    (boundedBy h ps) = { h with min := (boundedBy h ps).min, max := (boundedBy h ps).max } := by
  unfold boundedBy
  induction ps generalizing h with
  | nil => rfl
  | cons p ps ih => rw [List.foldl_cons, ih]; rfl

theorem boundedBy_append (h : LasHeader) (ps qs : List Point) :
    boundedBy h (ps ++ qs) = boundedBy (boundedBy h ps) qs := by
  unfold boundedBy; rw [List.foldl_append]

/-- The return number of a point, for the counts. -/
def returnOf (p : Point) : Nat :=
  match lasValue p "ReturnNumber" with
  | some b => leNat b % 256
  | none => 0

/-- The body of the loop over the points writes the record of each point. `At i c` says what is in the cursor
    before point `i`. -/
structure WritesPoints (n : Nat) (t : Transforms) (counting : ReturnCounts → Point → ReturnCounts)
    (point : Nat → PointState → Out PointState) (ps : List Point) (At : Nat → Bytes → Prop) : Prop where
  step : ∀ i p rec st, ps[i]? = some p → storedRecord n t p = some rec → st.header.transforms = t → At i st.cursor →
    ∃ c, At (i + 1) c ∧ point i st = .ok ⟨c, st.out.write rec, st.header.updateBounds (posOf p), counting st.counts p⟩
  /-- A point that cannot be stored is refused. -/
  refuse : ∀ i p st, ps[i]? = some p → storedRecord n t p = none → st.header.transforms = t → At i st.cursor →
    point i st = panicked

theorem writesPoints_loop {n : Nat} {t : Transforms} {counting : ReturnCounts → Point → ReturnCounts}
    {point : Nat → PointState → Out PointState} {ps : List Point} {At : Nat → Bytes → Prop}
    (h : WritesPoints n t counting point ps At) {recs : List Bytes} (hrec : Stored n t ps recs) (st : PointState)
    (ht : st.header.transforms = t) (h0 : At 0 st.cursor) (hin : st.out.pos ≤ st.out.data.length) :
    ∃ c, forLoop (List.range ps.length) st (fun st i => point i st) =
      .ok ⟨c, st.out.write recs.flatten, boundedBy st.header ps, ps.foldl counting st.counts⟩ := by
  have hlen : recs.length = ps.length := mapM_length hrec
  obtain ⟨s', h1, h2⟩ := forLoop_range_total (f := fun st i => point i st)
    (P := fun k s => At k s.cursor ∧ s.out = st.out.write (recs.take k).flatten ∧
      s.header = boundedBy st.header (ps.take k) ∧ s.counts = (ps.take k).foldl counting st.counts)
    ps.length st ⟨h0, by simp [write_nil hin], by simp [boundedBy], by simp⟩ (by
      rintro k hk ⟨c, o, hd, cs⟩ ⟨e1, e2, e3, e4⟩
      simp only at e1 e2 e3 e4
      subst e2 e3 e4
      have hp : ps[k]? = some ps[k] := List.getElem?_eq_getElem hk
      obtain ⟨rec, hr1, hr2⟩ := mapM_getElem hrec hp
      obtain ⟨c', h5, h6⟩ := h.step k ps[k] rec ⟨c, _, _, _⟩ hp hr2 (by
        show (boundedBy st.header (ps.take k)).transforms = t
        rw [boundedBy_fields]; exact ht) e1
      refine ⟨_, h6, h5, ?_, ?_, ?_⟩
      · rw [List.take_add_one, hr1]
        simp only [Option.toList_some, List.flatten_append, List.flatten_cons, List.flatten_nil, List.append_nil]
        exact write_write hin _ _
      · rw [List.take_add_one, hp, boundedBy_append]
        rfl
      · rw [List.take_add_one, hp, List.foldl_append]
        rfl)
  obtain ⟨c, o, hd, cs⟩ := s'
  obtain ⟨_, e2, e3, e4⟩ := h2
  simp only at e2 e3 e4
  rw [List.take_of_length_le (by omega)] at e2 e3 e4
  subst e2 e3 e4
  exact ⟨c, h1⟩

theorem posOf_eq {p : Point} {b : Bytes} (h : lasValue p "Position3D" = some b) : posOf p = readVec3F64 b := by
  unfold posOf lasPosition
  rw [h]
  rfl

theorem returnOf_eq {p : Point} {b : Bytes} (h : lasValue p "ReturnNumber" = some b) :
    returnOf p = (BitVec.ofNat 8 (leNat b)).toNat := by
  unfold returnOf
  rw [h, BitVec.toNat_ofNat]

/-- Counting of the default path. -/
def countReturn (c : ReturnCounts) (p : Point) : ReturnCounts := c.add (returnOf p)

/-- The custom path does not count. -/
def countNothing (c : ReturnCounts) (_ : Point) : ReturnCounts := c

theorem default_writes {n : Nat} {f : Format} (hf : Format.new n = .ok f) (t : Transforms) {l : PointLayout}
    (hd : DefaultFor f l) (hl : Solid l) {rs : List Bytes} (hall : AllLen l.size rs) (rest : Bytes) :
    WritesPoints n t countReturn (fun _ => writeDefaultPoint f) (rs.map (pointOf l))
      (fun i c => c = (rs.drop i).flatten ++ rest) where
  step := by
    intro i p rec st hp hrec ht hc
    rw [List.getElem?_map] at hp
    obtain ⟨r, hr, rfl⟩ := Option.map_eq_some_iff.1 hp
    refine ⟨_, rfl, ?_⟩
    have hcur : st.cursor = r ++ ((rs.drop (i + 1)).flatten ++ rest) := by
      rw [hc, List.drop_eq_getElem?_toList_append, hr]
      simp
    obtain ⟨m1, _⟩ := mem_written f
    have hv := reads_default hd hl r
    obtain ⟨b1, h1, h2⟩ := reads_value hv (m1 position3D (by decide))
    obtain ⟨b2, h3, h4⟩ := reads_value hv (m1 returnNumber (by decide))
    unfold writeDefaultPoint
    rw [hcur, readValues_point hd (hall.getElem hr)]
    show (lasRecord f st.header.transforms (pointOf l r)).bind _ = _
    rw [ht, lasRecord_eq hf t hv, hrec]
    show (LasValues.value (pointOf l r) position3D).bind _ = _
    rw [h1]
    show ((LasValues.value (pointOf l r) returnNumber).bind _).bind _ = _
    rw [h3]
    rw [posOf_eq h2]
    unfold countReturn
    rw [returnOf_eq h4]
    rfl
  refuse := by
    intro i p st hp hrec ht hc
    rw [List.getElem?_map] at hp
    obtain ⟨r, hr, rfl⟩ := Option.map_eq_some_iff.1 hp
    have hcur : st.cursor = r ++ ((rs.drop (i + 1)).flatten ++ rest) := by
      rw [hc, List.drop_eq_getElem?_toList_append, hr]
      simp
    unfold writeDefaultPoint
    rw [hcur, readValues_point hd (hall.getElem hr)]
    show (lasRecord f st.header.transforms (pointOf l r)).bind _ = _
    rw [ht, lasRecord_eq hf t (reads_default hd hl r), hrec]
    rfl

theorem custom_writes {n : Nat} {f : Format} (hf : Format.new n = .ok f) (t : Transforms) {l : PointLayout}
    {readers : List (AttrDef × ReaderFn)}
    (hr : ∀ (recs : List Bytes) (rest : Bytes) (i : Nat) (r : Bytes), AllLen l.size recs → recs[i]? = some r →
        ∃ v, runReaders readers i (recs.flatten ++ rest) = .ok v ∧ Reads f (pointOf l r) v)
    {rs : List Bytes} (hall : AllLen l.size rs) (rest : Bytes) :
    WritesPoints n t countNothing (writeCustomPoint f readers) (rs.map (pointOf l))
      (fun _ c => c = rs.flatten ++ rest) where
  step := by
    intro i p rec st hp hrec ht hc
    rw [List.getElem?_map] at hp
    obtain ⟨r, hri, rfl⟩ := Option.map_eq_some_iff.1 hp
    refine ⟨st.cursor, hc, ?_⟩
    obtain ⟨v, h0, hv⟩ := hr rs rest i r hall hri
    obtain ⟨m1, _⟩ := mem_written f
    obtain ⟨b1, h1, h2⟩ := reads_value hv (m1 position3D (by decide))
    unfold writeCustomPoint
    rw [show runReaders readers i st.cursor = .ok v from hc ▸ h0]
    show (lasRecord f st.header.transforms v).bind _ = _
    rw [ht, lasRecord_eq hf t hv, hrec]
    show (LasValues.value v position3D).bind _ = _
    rw [h1, posOf_eq h2]
    rfl
  refuse := by
    intro i p st hp hrec ht hc
    rw [List.getElem?_map] at hp
    obtain ⟨r, hri, rfl⟩ := Option.map_eq_some_iff.1 hp
    obtain ⟨v, h0, hv⟩ := hr rs rest i r hall hri
    unfold writeCustomPoint
    rw [show runReaders readers i st.cursor = .ok v from hc ▸ h0]
    show (lasRecord f st.header.transforms v).bind _ = _
    rw [ht, lasRecord_eq hf t hv, hrec]
    rfl

/-! ## The loop over the chunks -/

/-- Points of chunk `k`. -/
def chunkOf {α : Type} (xs : List α) (k : Nat) : List α := (xs.drop (k * chunkPoints)).take chunkPoints

theorem chunkOf_length {α : Type} (xs : List α) (k : Nat) :
    (chunkOf xs k).length = min chunkPoints (xs.length - k * chunkPoints) := by
  unfold chunkOf; simp

theorem take_chunks {α : Type} (xs : List α) (k : Nat) :
    xs.take ((k + 1) * chunkPoints) = xs.take (k * chunkPoints) ++ chunkOf xs k := by
  unfold chunkOf
  rw [Nat.succ_mul, List.take_add]

/-- The body of the loop over the points is right for every chunk. -/
def PointOk (n : Nat) (t : Transforms) (l : PointLayout) (counting : ReturnCounts → Point → ReturnCounts)
    (point : Nat → PointState → Out PointState) : Prop :=
  ∀ (rs : List Bytes) (rest : Bytes), AllLen l.size rs →
    ∃ At, WritesPoints n t counting point (rs.map (pointOf l)) At ∧ At 0 (rs.flatten ++ rest)

theorem default_pointOk {n : Nat} {f : Format} (hf : Format.new n = .ok f) (t : Transforms) {l : PointLayout}
    (hd : DefaultFor f l) (hl : Solid l) : PointOk n t l countReturn (fun _ => writeDefaultPoint f) :=
  fun _ rest hall => ⟨_, default_writes hf t hd hl hall rest, rfl⟩

theorem writeChunk_eq {β σ : Type} [BorrowedBuffer β] {b : β} {l : PointLayout} {qs : List Point}
    (hb : ShowsPoints b l qs) {n : Nat} {t : Transforms} {counting : ReturnCounts → Point → ReturnCounts}
    {point : Nat → PointState → Out PointState} (hp : PointOk n t l counting point) (sink : Sink σ)
    (st : ChunkState σ) (ht : st.header.transforms = t) (hc : st.chunk.length = chunkPoints * l.size)
    (hs : (sink.start st.out).pos ≤ (sink.start st.out).data.length) (k : Nat) (hk : k * chunkPoints ≤ qs.length)
    {recs : List Bytes} (hrec : Stored n t (chunkOf qs k) recs) :
    ∃ chunk, chunk.length = chunkPoints * l.size ∧
      writeChunk b l.size sink point st k =
        (sink.finish st.out (chunkOf qs k).length ((sink.start st.out).write recs.flatten)).bind fun out =>
          .ok ⟨out, boundedBy st.header (chunkOf qs k), (chunkOf qs k).foldl counting st.counts, chunk⟩ := by
  have hlen : len b = qs.length := hb.len_eq
  have hn : (chunkOf qs k).length = min chunkPoints (qs.length - k * chunkPoints) := chunkOf_length qs k
  generalize hN : (chunkOf qs k).length = N at hn ⊢
  have hNle : N * l.size ≤ st.chunk.length := by
    rw [hc]; exact Nat.mul_le_mul_right _ (by omega)
  obtain ⟨r, h1, h2, h3⟩ := hb.getPointRange_ok (k * chunkPoints) (k * chunkPoints + N) (st.chunk.take (N * l.size))
    (by omega) (by omega) (by rw [List.length_take]; rw [show k * chunkPoints + N - k * chunkPoints = N by omega]; omega)
  rw [show k * chunkPoints + N - k * chunkPoints = N by omega] at h2 h3
  have hpart : (qs.drop (k * chunkPoints)).take N = chunkOf qs k := by
    unfold chunkOf
    rw [hn, List.take_eq_take_iff]
    simp
  rw [hpart] at h3
  have hput : put st.chunk 0 r = (recordsOf l.size N r).flatten ++ st.chunk.drop r.length := by
    rw [flatten_recordsOf h2]
    unfold put
    simp
  refine ⟨put st.chunk 0 r, ?_, ?_⟩
  · rw [hput, flatten_recordsOf h2, List.length_append, List.length_drop]
    omega
  · obtain ⟨At, hw, h0⟩ := hp (recordsOf l.size N r) (st.chunk.drop r.length) (recordsOf_allLen h2)
    rw [h3] at hw
    rw [← hput] at h0
    obtain ⟨c, hloop⟩ := writesPoints_loop hw hrec ⟨put st.chunk 0 r, sink.start st.out, st.header, st.counts⟩ ht h0 hs
    unfold writeChunk
    rw [hlen, ← hn]
    show (sliceGet st.chunk 0 (N * l.size)).bind _ = _
    rw [sliceGet_prefix hNle]
    show (getPointRange b ⟨k * chunkPoints, k * chunkPoints + N⟩ (st.chunk.take (N * l.size))).bind _ = _
    rw [h1]
    show (forLoop (List.range N) _ _).bind _ = _
    rw [← hN, hloop]
    rfl

theorem stored_drop_take {n : Nat} {t : Transforms} {ps : List Point} {recs : List Bytes} (h : Stored n t ps recs) (i k : Nat) :
    Stored n t ((ps.drop i).take k) ((recs.drop i).take k) := by
  have drop : ∀ (i : Nat) (ps : List Point) (recs : List Bytes), Stored n t ps recs → Stored n t (ps.drop i) (recs.drop i) := by
    intro i
    induction i with
    | zero => intro ps recs h; exact h
    | succ i ih =>
      intro ps recs h
      cases ps with
      | nil => cases h; rfl
      | cons p ps =>
        unfold Stored at h
        rw [List.mapM_cons] at h
        obtain ⟨b, hb, h⟩ := Option.bind_eq_some_iff.1 h
        obtain ⟨bs, hbs, h⟩ := Option.bind_eq_some_iff.1 h
        cases h
        exact ih ps bs hbs
  have take : ∀ (k : Nat) (ps : List Point) (recs : List Bytes), Stored n t ps recs → Stored n t (ps.take k) (recs.take k) := by
    intro k
    induction k with
    | zero => intro ps recs h; rfl
    | succ k ih =>
      intro ps recs h
      cases ps with
      | nil => cases h; rfl
      | cons p ps =>
        unfold Stored at h
        rw [List.mapM_cons] at h
        obtain ⟨b, hb, h⟩ := Option.bind_eq_some_iff.1 h
        obtain ⟨bs, hbs, h⟩ := Option.bind_eq_some_iff.1 h
        cases h
        have := ih ps bs hbs
        unfold Stored at this ⊢
        rw [List.take_succ_cons, List.mapM_cons, hb, this]
        rfl
  exact take k _ _ (drop i _ _ h)

theorem chunkPoints_pos : 0 < chunkPoints := by unfold chunkPoints; omega

/-- All chunks. `P k` says what the sink holds after `k` chunks. -/
theorem writeChunks_eq {β σ : Type} [BorrowedBuffer β] {b : β} {l : PointLayout} {qs : List Point}
    (hb : ShowsPoints b l qs) {n : Nat} {t : Transforms} {counting : ReturnCounts → Point → ReturnCounts}
    {point : Nat → PointState → Out PointState} (hp : PointOk n t l counting point) (sink : Sink σ)
    (out : σ) (header : LasHeader) (ht : header.transforms = t) {recs : List Bytes} (hrec : Stored n t qs recs)
    (P : Nat → σ → Prop) (h0 : P 0 out)
    (hstart : ∀ k s, P k s → (sink.start s).pos ≤ (sink.start s).data.length)
    (hstep : ∀ k s, k * chunkPoints < qs.length → P k s →
      ∃ s', sink.finish s (chunkOf qs k).length ((sink.start s).write (chunkOf recs k).flatten) = .ok s' ∧ P (k + 1) s') :
    ∃ s, P ((qs.length + (chunkPoints - 1)) / chunkPoints) s ∧
      writeChunks b l.size sink point out header =
        ((boundedBy header qs).updateCounts qs.length (qs.foldl counting ReturnCounts.empty)).bind fun h => .ok (s, h) := by
  have hpos := chunkPoints_pos
  have hlen : len b = qs.length := hb.len_eq
  obtain ⟨st, h1, h2, h3, h4, h5⟩ := forLoop_range_total (f := writeChunk b l.size sink point)
    (P := fun k (st : ChunkState σ) => P k st.out ∧ st.header = boundedBy header (qs.take (k * chunkPoints)) ∧
      st.counts = (qs.take (k * chunkPoints)).foldl counting ReturnCounts.empty ∧ st.chunk.length = chunkPoints * l.size)
    ((qs.length + (chunkPoints - 1)) / chunkPoints) ⟨out, header, ReturnCounts.empty, zeros (chunkPoints * l.size)⟩
    ⟨h0, by simp [boundedBy], by simp, by simp [zeros]⟩ (by
      intro k hk st ⟨e1, e2, e3, e4⟩
      have hkl : k * chunkPoints < qs.length := (chunk_lt hpos).1 (by rw [Nat.add_sub_assoc hpos]; exact hk)
      obtain ⟨chunk, e5, e6⟩ := writeChunk_eq hb hp sink st (by rw [e2, boundedBy_fields]; exact ht) e4
        (hstart k _ e1) k (Nat.le_of_lt hkl) (stored_drop_take hrec (k * chunkPoints) chunkPoints)
      obtain ⟨s', e7, e8⟩ := hstep k st.out hkl e1
      rw [show (recs.drop (k * chunkPoints)).take chunkPoints = chunkOf recs k from rfl, e7] at e6
      refine ⟨_, e6, e8, ?_, ?_, e5⟩
      · show boundedBy st.header (chunkOf qs k) = _
        rw [e2, ← boundedBy_append, take_chunks]
      · show (chunkOf qs k).foldl counting st.counts = _
        rw [e3, ← List.foldl_append, take_chunks])
  have hall : qs.take ((qs.length + (chunkPoints - 1)) / chunkPoints * chunkPoints) = qs := by
    apply List.take_of_length_le
    have := chunk_last (n := qs.length) hpos
    rw [← Nat.add_sub_assoc hpos]
    exact this
  rw [hall] at h3 h4
  refine ⟨st.out, h2, ?_⟩
  unfold writeChunks
  rw [hlen]
  show (forLoop _ _ _).bind _ = _
  rw [h1]
  show (st.header.updateCounts qs.length st.counts).bind _ = _
  rw [h3, h4]
  rfl

/-! ## Sizes -/

/-- Every value of the point has the size of its type. -/
def Sized (p : Point) : Prop := ∀ a ∈ p, a.2.length = a.1.size

theorem pointOf_sized {l : PointLayout} (hl : Solid l) {r : Bytes} (hr : r.length = l.size) : Sized (pointOf l r) := by
  intro a ha
  obtain ⟨m, hm, rfl⟩ := List.mem_map.1 ha
  have := hl.inside m hm
  show (window r m.offset m.size).length = m.size
  unfold window
  rw [List.length_take, List.length_drop]
  omega

theorem batch_sized (b : Batch) : ∀ p ∈ b.points, Sized p := by
  intro p hp
  obtain ⟨i, hi⟩ := List.mem_iff_getElem?.1 hp
  obtain ⟨r, _, h1, h2⟩ := b.shows.getPoint_ok i p (zeros b.layout.size) hi (by simp [zeros])
  rw [← h2]
  exact pointOf_sized b.solid h1

theorem lasValue_size {p : Point} (hp : Sized p) {name : String} {b : Bytes} (h : lasValue p name = some b) :
    ∃ type, lasTypes.lookup name = some type ∧ b.length = type.size := by
  unfold lasValue at h
  obtain ⟨type, h1, h2⟩ := Option.bind_eq_some_iff.1 h
  refine ⟨type, h1, ?_⟩
  cases hf : p.find? (fun a => a.1.name = name) with
  | none => rw [hf] at h2; cases h2; simp
  | some a =>
    obtain ⟨d, v⟩ := a
    rw [hf] at h2
    obtain ⟨g, h3, h4⟩ := Option.map_eq_some_iff.1 h2
    rw [← h4]
    exact conversion_size h3 (hp _ (List.mem_of_find?_eq_some hf))

theorem lasItems_sizes : ∀ n ≤ 10, (∀ item ∈ lasItems n,
      (item.1 = "LASLocalPosition" ∧ item.2 = 12) ∨ (item.1 = "LASBasicFlags" ∧ item.2 = 1) ∨
      (item.1 = "LASExtendedFlags" ∧ item.2 = 2) ∨
      (item.1 ∉ ["LASLocalPosition", "LASBasicFlags", "LASExtendedFlags"] ∧
        (lasTypes.lookup item.1).map DataType.size = some item.2)) ∧
      ((lasItems n).map Prod.snd).sum = lasRecordLength n := by
  have key : ∀ n : Fin 11, (∀ item ∈ lasItems n,
      (item.1 = "LASLocalPosition" ∧ item.2 = 12) ∨ (item.1 = "LASBasicFlags" ∧ item.2 = 1) ∨
      (item.1 = "LASExtendedFlags" ∧ item.2 = 2) ∨
      (item.1 ∉ ["LASLocalPosition", "LASBasicFlags", "LASExtendedFlags"] ∧
        (lasTypes.lookup item.1).map DataType.size = some item.2)) ∧
      ((lasItems n).map Prod.snd).sum = lasRecordLength n := by decide +kernel
  intro n hn
  exact key ⟨n, by omega⟩

theorem storedItem_length {n : Nat} (hn : n ≤ 10) {t : Transforms} {p : Point} (hp : Sized p) {item : String × Nat}
    (hi : item ∈ lasItems n) {b : Bytes} (hb : storedItem t p item.1 = some b) : b.length = item.2 := by
  rcases (lasItems_sizes n hn).1 item hi with ⟨e1, e2⟩ | ⟨e1, e2⟩ | ⟨e1, e2⟩ | ⟨e1, e2⟩
  · rw [e1] at hb
    obtain ⟨q, _, hq⟩ := Option.bind_eq_some_iff.1 (show (lasPosition p).bind (storedPosition t) = some b from hb)
    unfold storedPosition storedCoordinate at hq
    obtain ⟨x, hx, hq⟩ := Option.bind_eq_some_iff.1 hq
    obtain ⟨y, hy, hq⟩ := Option.bind_eq_some_iff.1 hq
    obtain ⟨z, hz, hq⟩ := Option.bind_eq_some_iff.1 hq
    cases hq
    obtain ⟨_, _, rfl⟩ := Option.map_eq_some_iff.1 hx
    obtain ⟨_, _, rfl⟩ := Option.map_eq_some_iff.1 hy
    obtain ⟨_, _, rfl⟩ := Option.map_eq_some_iff.1 hz
    rw [e2, List.length_append, List.length_append, writeNum_length, writeNum_length, writeNum_length]
    rfl
  · rw [e1] at hb
    obtain ⟨parts, _, hq⟩ := Option.bind_eq_some_iff.1 (show packBits 1 packedBasic p = some b from hb)
    cases hq
    rw [e2, natLE_length]
  · rw [e1] at hb
    obtain ⟨parts, _, hq⟩ := Option.bind_eq_some_iff.1 (show packBits 2 packedExtended p = some b from hb)
    cases hq
    rw [e2, natLE_length]
  · simp only [List.mem_cons, List.not_mem_nil, or_false, not_or] at e1
    unfold storedItem at hb
    rw [if_neg e1.1, if_neg e1.2.1, if_neg e1.2.2] at hb
    obtain ⟨type, h5, h6⟩ := lasValue_size hp hb
    rw [h5] at e2
    rw [h6]
    exact Option.some.inj e2

theorem storedRecord_length {n : Nat} (hn : n ≤ 10) {t : Transforms} {p : Point} (hp : Sized p) {r : Bytes}
    (h : storedRecord n t p = some r) : r.length = lasRecordLength n := by
  rw [← (lasItems_sizes n hn).2]
  unfold storedRecord at h
  obtain ⟨bs, h3, rfl⟩ := Option.map_eq_some_iff.1 h
  have h1 := fun item hi b => storedItem_length hn (t := t) hp (item := item) hi (b := b)
  clear h
  generalize lasItems n = items at h1 h3
  induction items generalizing bs with
  | nil => cases h3; rfl
  | cons item items ih =>
    rw [List.mapM_cons] at h3
    obtain ⟨b, hb, h3⟩ := Option.bind_eq_some_iff.1 h3
    obtain ⟨bs', hbs, h3⟩ := Option.bind_eq_some_iff.1 h3
    cases h3
    rw [List.flatten_cons, List.length_append, List.map_cons, List.sum_cons]
    rw [ih bs' (fun x hx => h1 x (List.mem_cons_of_mem _ hx)) hbs, h1 item (List.mem_cons_self) b hb]

theorem stored_allLen {n : Nat} (hn : n ≤ 10) {t : Transforms} {ps : List Point} (hp : ∀ p ∈ ps, Sized p) {recs : List Bytes}
    (h : Stored n t ps recs) : AllLen (lasRecordLength n) recs := by
  intro r hr
  obtain ⟨i, hi⟩ := List.mem_iff_getElem?.1 hr
  have hlen := mapM_length h
  have hil : i < ps.length := by rw [← hlen]; exact (List.getElem?_eq_some_iff.1 hi).1
  obtain ⟨y, h1, h2⟩ := mapM_getElem h (List.getElem?_eq_getElem hil)
  rw [hi] at h1
  cases h1
  exact storedRecord_length hn (hp _ (List.getElem_mem hil)) h2

theorem stored_append {n : Nat} {t : Transforms} {ps qs : List Point} {rs ss : List Bytes} (h1 : Stored n t ps rs)
    (h2 : Stored n t qs ss) : Stored n t (ps ++ qs) (rs ++ ss) := by
  unfold Stored at *
  rw [List.mapM_append, h1, h2]
  rfl

/-! ## Counts -/

theorem empty_counts : ReturnCounts.empty = (List.range 15).map fun k => (k + 1, 0) := rfl

theorem counts_fold (ps : List Point) (g : Nat → Nat) :
    ps.foldl countReturn ((List.range 15).map fun k => (k + 1, g k)) =
      (List.range 15).map fun k => (k + 1, g k + ps.countP fun p => returnOf p = k + 1) := by
  induction ps generalizing g with
  | nil => simp
  | cons p ps ih =>
    rw [List.foldl_cons]
    have : countReturn ((List.range 15).map fun k => (k + 1, g k)) p =
        (List.range 15).map fun k => (k + 1, g k + if returnOf p = k + 1 then 1 else 0) := by
      unfold countReturn ReturnCounts.add
      rw [List.map_map]
      apply List.map_congr_left
      intro k _
      simp only [Function.comp_apply]
      by_cases h : k + 1 = returnOf p
      · rw [if_pos h, if_pos h.symm]
      · rw [if_neg h, if_neg (fun e => h e.symm)]
        rfl
    rw [this, ih]
    apply List.map_congr_left
    intro k _
    rw [List.countP_cons]
    simp only [decide_eq_true_eq, Prod.mk.injEq, true_and]
    omega

theorem updateCounts_eq (h : LasHeader) (hb : h.byReturn.length = 15) (m : Nat) (g : Nat → Nat) :
    h.updateCounts m ((List.range 15).map fun k => (k + 1, g k)) =
      .ok { h with count := h.count + m, byReturn := h.byReturn.mapIdx fun i x => x + g i } := by
  obtain ⟨mn, mx, t, f, rl, lc, lb, c, br⟩ := h
  simp only at hb
  match br, hb with
  | [a0, a1, a2, a3, a4, a5, a6, a7, a8, a9, a10, a11, a12, a13, a14], _ => rfl

theorem countNothing_fold (ps : List Point) (c : ReturnCounts) : ps.foldl countNothing c = c := by
  induction ps with
  | nil => rfl
  | cons p ps ih => exact ih

theorem mapIdx_range {γ : Type} (k : Nat) (g : Nat → Nat) (h : Nat → Nat → γ) :
    ((List.range k).map g).mapIdx h = (List.range k).map fun i => h i (g i) := by
  apply List.ext_getElem?
  intro i
  simp only [List.getElem?_mapIdx, List.getElem?_map]
  by_cases hi : i < k
  · rw [List.getElem?_range hi]; rfl
  · rw [List.getElem?_eq_none (by simp; omega)]; rfl

theorem withReturn_length {n : Nat} {f : Format} (hf : Format.new n = .ok f) {t : Transforms} {ps : List Point}
    {recs : List Bytes} (h : Stored n t ps recs) (hp : ∀ p ∈ ps, Sized p) (k : Nat) :
    ps.countP (fun p => returnOf p = k) = (withReturn k ps).length := by
  unfold withReturn
  rw [← List.countP_eq_length_filter]
  apply List.countP_congr
  intro p hpm
  obtain ⟨r, hr⟩ := mapM_some_mem h p hpm
  obtain ⟨m1, _⟩ := mem_written f
  obtain ⟨b, hb⟩ := storedRecord_values hf hr (m1 returnNumber (by decide))
  obtain ⟨type, h1, h2⟩ := lasValue_size (hp p hpm) hb
  cases h1
  have hlt := leNat_lt b
  rw [h2] at hlt
  have hlt : leNat b < 256 := hlt
  have hb' : lasValue p "ReturnNumber" = some b := hb
  unfold returnOf
  rw [hb']
  simp only [decide_eq_true_eq, Option.map_some, Option.some.injEq]
  rw [Nat.mod_eq_of_lt hlt]

end Pasture.Las
