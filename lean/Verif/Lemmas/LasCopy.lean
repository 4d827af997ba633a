import Verif.Lemmas.LasRoundTrip
import Verif.Lemmas.LasShort
import Verif.Props.LasWriter
import Verif.Spec.LasCopy

/-!
# Writing a record that was read
-/

namespace Pasture.Las

open BorrowedBuffer Spec Props

theorem find_name {ds : List AttrDef} (hn : (ds.map AttrDef.name).Nodup) {d : AttrDef} (hd : d ∈ ds) (g : AttrDef → Bytes) :
    (ds.map fun d => (d, g d)).find? (fun a => a.1.name = d.name) = some (d, g d) := by
  induction ds with
  | nil => cases hd
  | cons e es ih =>
    rw [List.map_cons, List.nodup_cons] at hn
    rw [List.map_cons]
    by_cases he : e.name = d.name
    · rw [List.find?_cons_of_pos (by simp [he])]
      rcases List.mem_cons.1 hd with rfl | hd
      · rfl
      · exact absurd (List.mem_map.2 ⟨d, hd, he.symm⟩) hn.1
    · rw [List.find?_cons_of_neg (by simp [he])]
      rcases List.mem_cons.1 hd with rfl | hd
      · exact absurd rfl he
      · exact ih hn.2 hd

/-- Attributes one after another have the bytes from the first to the last. -/
theorem windows_flatten (rec : Bytes) : ∀ (ms : List Member) (o e : Nat), Consecutive o ms e → e ≤ rec.length →
    o ≤ e ∧ (ms.map fun m => window rec m.offset m.size).flatten = window rec o (e - o)
  | [], o, e, h, _ => by cases h; simp [window]
  | m :: ms, o, e, h, he => by
    obtain ⟨h1, h2⟩ := h
    obtain ⟨h3, h4⟩ := windows_flatten rec ms _ _ h2 he
    refine ⟨by omega, ?_⟩
    rw [List.map_cons, List.flatten_cons, h4, h1]
    unfold window
    rw [show e - o = m.size + (e - (o + m.size)) by omega, List.take_add, List.drop_drop]

/-- The value of an attribute of a point that was read: what the reader's rule makes of the record. -/
theorem read_value {f : Format} {raw l : PointLayout} (hs : Solid raw) (hne : l ≠ raw)
    (hl : l.attributes.map Member.definition = writtenAttributes f) {t : Transforms} {rec : Bytes} {d : AttrDef}
    (hd : d ∈ writtenAttributes f) {r : Rule} (hp : lasPlan raw l t d = some r) {m : Member} (hm : m ∈ raw.attributes)
    (hr : r.source = m.definition) :
    lasValue (readPoint raw l t rec (zeroPoint l)) d.name = some (r.value (window rec m.offset m.size)) := by
  unfold readPoint
  rw [if_neg hne]
  have e : (lasPlan raw l t).apply (pointOf raw rec) (zeroPoint l) = (writtenAttributes f).map fun d =>
      (d, match lasPlan raw l t d with
        | some r => match (pointOf raw rec).get r.source with
          | some v => r.value v
          | none => List.replicate d.size 0
        | none => List.replicate d.size 0) := by
    unfold Plan.apply zeroPoint
    rw [← hl, List.map_map, List.map_map]
    rfl
  rw [e]
  unfold lasValue
  rw [(written_covered f d hd).1]
  simp only [Option.bind_eq_bind, Option.bind_some]
  rw [find_name (written_names f) hd]
  simp only [hp]
  rw [conversion_same', hr]
  have : (pointOf raw rec).get m.definition = some (window rec m.offset m.size) :=
    lookup_map_def (g := fun m => window rec m.offset m.size) hm hs.names
  rw [this]
  rfl

/-- The attributes of raw records other than the position: the flags, or attributes that are read as they are. -/
theorem raw_attributes : ∀ n ≤ 10, ∃ f, Format.new n = .ok f ∧
    (rawAttributes f).head? = some localPosition ∧ position3D ∈ writtenAttributes f ∧
    (n ≤ 5 → ∀ x ∈ packedBasic, (⟨x.1, .u8⟩ : AttrDef) ∈ writtenAttributes f) ∧
    (5 < n → ∀ x ∈ packedExtended, (⟨x.1, .u8⟩ : AttrDef) ∈ writtenAttributes f) ∧
    ∀ d ∈ (rawAttributes f).tail, (n ≤ 5 ∧ d = basicFlags) ∨ (5 < n ∧ d = extendedFlags) ∨
      (d ∈ writtenAttributes f ∧ d.name ∉ ["Position3D", "LASLocalPosition", "LASBasicFlags", "LASExtendedFlags"] ∧
        (packedFields n).lookup d.name = none) := by
  have key : ∀ n : Fin 11, ∃ f, Format.new n = .ok f ∧
    (rawAttributes f).head? = some localPosition ∧ position3D ∈ writtenAttributes f ∧
    (n.val ≤ 5 → ∀ x ∈ packedBasic, (⟨x.1, .u8⟩ : AttrDef) ∈ writtenAttributes f) ∧
    (5 < n.val → ∀ x ∈ packedExtended, (⟨x.1, .u8⟩ : AttrDef) ∈ writtenAttributes f) ∧
    ∀ d ∈ (rawAttributes f).tail, (n.val ≤ 5 ∧ d = basicFlags) ∨ (5 < n.val ∧ d = extendedFlags) ∨
      (d ∈ writtenAttributes f ∧ d.name ∉ ["Position3D", "LASLocalPosition", "LASBasicFlags", "LASExtendedFlags"] ∧
        (packedFields n).lookup d.name = none) := by
    intro n
    match n with
    | 0 | 1 | 2 | 3 | 4 | 5 | 6 | 7 | 8 | 9 | 10 =>
      exact ⟨_, rfl, rfl, by decide +kernel, by decide +kernel, by decide +kernel, by decide +kernel⟩
  intro n hn
  exact key ⟨n, by omega⟩

theorem packedMembers_definition : ∀ (o : Nat) (ds : List AttrDef), (packedMembers o ds).map Member.definition = ds
  | _, [] => rfl
  | o, d :: ds => by unfold packedMembers; rw [List.map_cons, packedMembers_definition]

theorem basic_unique : ∀ x ∈ packedBasic, packedBasic.lookup x.1 = some x.2 := by decide

theorem extended_unique : ∀ x ∈ packedExtended, packedExtended.lookup x.1 = some x.2 := by decide

theorem one_byte {v : Bytes} (h : v.length = 1) : leNat v < 256 ∧ natLE 1 (leNat v) = v := by
  have h1 := leNat_lt v
  rw [h] at h1
  refine ⟨by omega, ?_⟩
  have := natLE_leNat v
  rwa [h] at this

theorem two_bytes {v : Bytes} (h : v.length = 2) : leNat v < 65536 ∧ natLE 2 (leNat v) = v := by
  have h1 := leNat_lt v
  rw [h] at h1
  refine ⟨by omega, ?_⟩
  have := natLE_leNat v
  rwa [h] at this

/-- Packing what was unpacked, one byte. -/
theorem repack_basic {p : Point} {v : Bytes} (hv : v.length = 1)
    (h : ∀ x ∈ packedBasic, lasValue p x.1 = some (bitField 1 x.2.1 x.2.2 v)) : packBits 1 packedBasic p = some v := by
  obtain ⟨h1, h2⟩ := one_byte hv
  unfold packBits
  rw [mapM_some (g := fun x => 2 ^ x.2.1 * (leNat v / 2 ^ x.2.1 % 2 ^ x.2.2)) (by
    intro x hx
    simp only [h x hx, Option.map_some, bitField, leNat_natLE]
    simp only [packedBasic, List.mem_cons, List.not_mem_nil, or_false] at hx
    rcases hx with rfl | rfl | rfl | rfl <;> simp only [Option.some.injEq, Nat.reducePow, Nat.reduceMul] <;> omega)]
  show some (natLE 1 _) = _
  conv_rhs => rw [← h2]
  congr 2
  simp only [packedBasic, List.map_cons, List.map_nil, List.sum_cons, List.sum_nil, Nat.reducePow]
  omega

/-- Packing what was unpacked, two bytes. -/
theorem repack_extended {p : Point} {v : Bytes} (hv : v.length = 2)
    (h : ∀ x ∈ packedExtended, lasValue p x.1 = some (convertNumber .u16 .u8 (bitField 2 x.2.1 x.2.2 v))) :
    packBits 2 packedExtended p = some v := by
  obtain ⟨h1, h2⟩ := two_bytes hv
  unfold packBits
  rw [mapM_some (g := fun x => 2 ^ x.2.1 * (leNat v / 2 ^ x.2.1 % 2 ^ x.2.2)) (by
    intro x hx
    have hb : leNat v / 2 ^ x.2.1 % 2 ^ x.2.2 < 16 := by
      simp only [packedExtended, List.mem_cons, List.not_mem_nil, or_false] at hx
      rcases hx with rfl | rfl | rfl | rfl | rfl | rfl <;> simp only [Nat.reducePow] <;> omega
    simp only [h x hx, Option.map_some, bitField]
    rw [convert_u16_u8 (by omega), leNat_natLE]
    simp only [packedExtended, List.mem_cons, List.not_mem_nil, or_false] at hx
    rcases hx with rfl | rfl | rfl | rfl | rfl | rfl <;>
      simp only [Option.some.injEq, Nat.reducePow, Nat.reduceMul] <;> omega)]
  show some (natLE 2 _) = _
  conv_rhs => rw [← h2]
  congr 2
  simp only [packedExtended, List.map_cons, List.map_nil, List.sum_cons, List.sum_nil, Nat.reducePow]
  omega

/-! ## Positions -/

theorem storedInt_range (rec : Bytes) (k : Nat) (h : 4 * k + 4 ≤ rec.length) :
    -2 ^ 31 ≤ storedInt rec k ∧ storedInt rec k < 2 ^ 31 := by
  have h1 := leNat_lt (window rec (4 * k) 4)
  rw [length_window h] at h1
  have h2 := intOfBits_spec (p := .i32) rfl (n := leNat (window rec (4 * k) 4)) h1
  simp only [Prim.lo, Prim.hi, Prim.size] at h2
  unfold storedInt
  omega

theorem write_storedInt (rec : Bytes) (k : Nat) (h : 4 * k + 4 ≤ rec.length) :
    writeNum .i32 (.int (storedInt rec k)) = window rec (4 * k) 4 := by
  have h1 := leNat_lt (window rec (4 * k) 4)
  have h3 := natLE_leNat (window rec (4 * k) 4)
  rw [length_window h] at h1 h3
  have h2 := intOfBits_spec (p := .i32) rfl (n := leNat (window rec (4 * k) 4)) h1
  simp only [Prim.lo, Prim.hi, Prim.size] at h2
  conv_rhs => rw [← h3]
  show natLE 4 (storedInt rec k % 2 ^ (8 * 4)).toNat = _
  unfold storedInt
  congr 1
  omega

theorem storedInt_write (x y z : Int) (rest : Bytes) (hx : -2 ^ 31 ≤ x ∧ x < 2 ^ 31) (hy : -2 ^ 31 ≤ y ∧ y < 2 ^ 31)
    (hz : -2 ^ 31 ≤ z ∧ z < 2 ^ 31) :
    storedInt (writeNum .i32 (.int x) ++ writeNum .i32 (.int y) ++ writeNum .i32 (.int z) ++ rest) 0 = x ∧
    storedInt (writeNum .i32 (.int x) ++ writeNum .i32 (.int y) ++ writeNum .i32 (.int z) ++ rest) 1 = y ∧
    storedInt (writeNum .i32 (.int x) ++ writeNum .i32 (.int y) ++ writeNum .i32 (.int z) ++ rest) 2 = z := by
  have l1 : (writeNum .i32 (.int x)).length = 4 := writeNum_length .i32 _
  have l2 : (writeNum .i32 (.int y)).length = 4 := writeNum_length .i32 _
  have l3 : (writeNum .i32 (.int z)).length = 4 := writeNum_length .i32 _
  have key : ∀ {v : Int}, -2 ^ 31 ≤ v ∧ v < 2 ^ 31 → intOfBits .i32 (leNat (writeNum .i32 (.int v))) = v := by
    intro v hv
    have := read_i32 hv
    exact Num.int.inj this
  unfold storedInt window
  refine ⟨?_, ?_, ?_⟩
  · rw [List.append_assoc, List.append_assoc, List.drop_zero, List.take_left' l1, key hx]
  · rw [List.append_assoc, List.append_assoc, List.drop_left' l1, List.take_left' l2, key hy]
  · rw [List.append_assoc, List.drop_left' (by rw [List.length_append]; omega), List.take_left' l3, key hz]

/-- The position of a point that was read. -/
theorem position_read {t : Transforms} (ht : Axes OrdinaryAxis t) {rec : Bytes} (hr : 12 ≤ rec.length) :
    positionOf (worldPosition t (convertVector .i32 .f64 (window rec 0 12))) =
      ⟨dequantize t.x (storedInt rec 0), dequantize t.y (storedInt rec 1), dequantize t.z (storedInt rec 2)⟩ := by
  have ew : window rec 0 12 = writeNum .i32 (.int (storedInt rec 0)) ++ writeNum .i32 (.int (storedInt rec 1)) ++
      writeNum .i32 (.int (storedInt rec 2)) := by
    rw [write_storedInt rec 0 (by omega), write_storedInt rec 1 (by omega), write_storedInt rec 2 (by omega)]
    unfold window
    rw [show (12 : Nat) = 4 + 4 + 4 by rfl, List.take_add, List.take_add, List.drop_drop, List.drop_drop]
  have r0 := storedInt_range rec 0 (by omega)
  have r1 := storedInt_range rec 1 (by omega)
  have r2 := storedInt_range rec 2 (by omega)
  rw [ew]
  obtain ⟨w1, w2, w3⟩ := window_three (writeNum_length .i32 (.int (storedInt rec 0)))
    (writeNum_length .i32 (.int (storedInt rec 1))) (writeNum_length .i32 (.int (storedInt rec 2)))
  unfold convertVector
  rw [w1, w2, w3]
  obtain ⟨u1, u2, u3⟩ := window_three (k := 8) (a := convertNumber .i32 .f64 (writeNum .i32 (.int (storedInt rec 0))))
    (b := convertNumber .i32 .f64 (writeNum .i32 (.int (storedInt rec 1))))
    (c := convertNumber .i32 .f64 (writeNum .i32 (.int (storedInt rec 2))))
    (writeNum_length .f64 _) (writeNum_length .f64 _) (writeNum_length .f64 _)
  unfold worldPosition
  rw [u1, u2, u3, read_local r0, read_local r1, read_local r2]
  show positionOf (writeNum .f64 (.double (dequantize t.x _)) ++ writeNum .f64 (.double (dequantize t.y _)) ++
    writeNum .f64 (.double (dequantize t.z _))) = _
  obtain ⟨v1, v2, v3⟩ := window_three (writeNum_length .f64 (.double (dequantize t.x (storedInt rec 0))))
    (writeNum_length .f64 (.double (dequantize t.y (storedInt rec 1))))
    (writeNum_length .f64 (.double (dequantize t.z (storedInt rec 2))))
  unfold positionOf
  rw [show window _ 0 8 = _ from v1, show window _ 8 8 = _ from v2, show window _ 16 8 = _ from v3,
    read_double (C37_read _ ht.1 _ r0).1, read_double (C37_read _ ht.2.1 _ r1).1, read_double (C37_read _ ht.2.2 _ r2).1]

theorem coordinate_stored {a : Axis} {w : F64} {z : Int} (h : quantize a w = .ok z) :
    storedCoordinate a w = some (writeNum .i32 (.int z)) := by
  unfold storedCoordinate
  rw [h]
  rfl

theorem position_stored {t : Transforms} {p : P3 F64} {x y z : Bytes} (hx : storedCoordinate t.x p.x = some x)
    (hy : storedCoordinate t.y p.y = some y) (hz : storedCoordinate t.z p.z = some z) :
    storedPosition t p = some (x ++ y ++ z) := by
  unfold storedPosition
  rw [hx, hy, hz]
  rfl

/-! ## Records -/

/-- Writing what was read: all but the position is as before. -/
theorem stored_read {n : Nat} (hn : n ≤ 10) {t : Transforms} (ht : Axes OrdinaryAxis t) {f : Format}
    (hf : Format.new n = .ok f) {raw l : PointLayout} (hraw : pointLayoutFromMetadata ⟨f, none⟩ true = .ok raw)
    (hl : pointLayoutFromMetadata ⟨f, none⟩ false = .ok l) {rec : Bytes} (hr : rec.length = lasRecordLength n) {x y z : Int}
    (hx : quantize t.x (dequantize t.x (storedInt rec 0)) = .ok x)
    (hy : quantize t.y (dequantize t.y (storedInt rec 1)) = .ok y)
    (hz : quantize t.z (dequantize t.z (storedInt rec 2)) = .ok z) :
    12 ≤ rec.length ∧ storedRecord n t (readPoint raw l t rec (zeroPoint l)) =
      some (writeNum .i32 (.int x) ++ writeNum .i32 (.int y) ++ writeNum .i32 (.int z) ++ rec.drop 12) := by
  obtain ⟨f', raw', l', h1, h2, h3, h4, h5, h6⟩ := plan_filled t n hn
  obtain rfl : f = f' := by rw [hf] at h1; cases h1; rfl
  obtain rfl : raw = raw' := by rw [hraw] at h2; cases h2; rfl
  obtain rfl : l = l' := by rw [hl] at h3; cases h3; rfl
  obtain ⟨f', g1, g2, g3⟩ := layouts_packed n hn
  obtain rfl : f = f' := by rw [hf] at g1; cases g1; rfl
  obtain rfl : raw = packedLayout (rawAttributes f) := by rw [hraw] at g2; cases g2; rfl
  obtain ⟨f', raw', k1, k2, k3, k4⟩ := raw_layout n hn
  obtain rfl : f = f' := by rw [hf] at k1; cases k1; rfl
  obtain rfl : packedLayout (rawAttributes f) = raw' := by rw [hraw] at k2; cases k2; rfl
  obtain ⟨f', l', raw', m1, m2, m3, m4, _, m5, _⟩ := format_layouts n hn true t
  obtain rfl : f = f' := by rw [hf] at m1; cases m1; rfl
  obtain rfl : packedLayout (rawAttributes f) = raw' := by rw [hraw] at m3; cases m3; rfl
  obtain ⟨f', a1, a2, a3, a4, a5, a6⟩ := raw_attributes n hn
  obtain rfl : f = f' := by rw [hf] at a1; cases a1; rfl
  generalize hds : rawAttributes f = ds at *
  cases ds with
  | nil => cases a2
  | cons d0 ds =>
  obtain rfl : d0 = localPosition := by cases a2; rfl
  have hat : (packedLayout (localPosition :: ds)).attributes = ⟨localPosition, 0⟩ :: packedMembers 12 ds := rfl
  generalize packedLayout (localPosition :: ds) = raw at *
  rw [hat] at k3 k4
  obtain ⟨_, k4⟩ := k4
  change Consecutive 12 (packedMembers 12 ds) raw.size at k4
  rw [m4, ← hr] at k4
  obtain ⟨b1, b2⟩ := windows_flatten rec _ _ _ k4 (Nat.le_refl _)
  refine ⟨b1, ?_⟩
  generalize hp : readPoint raw l t rec (zeroPoint l) = p at *
  have value : ∀ {d : AttrDef} (_ : d ∈ writtenAttributes f) {r : Rule} (_ : lasPlan raw l t d = some r) {m : Member}
      (_ : m ∈ raw.attributes) (_ : r.source = m.definition),
      lasValue p d.name = some (r.value (window rec m.offset m.size)) := by
    intro d hd r hr m hm hs
    rw [← hp]
    exact read_value m5 h4 h5.1 hd hr hm hs
  have items : ∀ m ∈ packedMembers 12 ds, storedItem t p m.name = some (window rec m.offset m.size) := by
    intro m hm
    have hm' : m ∈ raw.attributes := by rw [hat]; exact List.mem_cons_of_mem _ hm
    have hd : m.definition ∈ ds := by
      have := packedMembers_definition 12 ds
      rw [← this]
      exact List.mem_map.2 ⟨m, hm, rfl⟩
    rcases a6 _ hd with ⟨c1, c2⟩ | ⟨c1, c2⟩ | ⟨c1, c2, c3⟩
    · have en : m.name = "LASBasicFlags" := congrArg AttrDef.name c2
      have es : m.size = 1 := congrArg AttrDef.size c2
      have hlen : (window rec m.offset m.size).length = 1 := by
        rw [← es]
        apply length_window
        have := m5.inside m hm'
        omega
      have hs : storedItem t p "LASBasicFlags" = packBits 1 packedBasic p := rfl
      rw [en, hs]
      apply repack_basic hlen
      intro q hq
      have hw := a4 c1 q hq
      have hlk := basic_unique q hq
      rcases h6 _ hw with ⟨e1, _, _⟩ | ⟨sh, wd, e0, e1, e2, e3⟩ | ⟨sh, wd, e0, _, _, _⟩ | ⟨_, _, e2, _⟩
      · cases congrArg AttrDef.datatype e1
      · have := basic_unique _ e1
        rw [hlk] at this
        obtain ⟨rfl, rfl⟩ : q.2.1 = sh ∧ q.2.2 = wd := by
          have := Option.some.inj this
          exact ⟨congrArg Prod.fst this, congrArg Prod.snd this⟩
        exact value hw e3 hm' c2.symm
      · omega
      · unfold packedFields at e2
        rw [if_pos c1] at e2
        change packedBasic.lookup q.1 = none at e2
        rw [hlk] at e2
        cases e2
    · have en : m.name = "LASExtendedFlags" := congrArg AttrDef.name c2
      have es : m.size = 2 := congrArg AttrDef.size c2
      have hlen : (window rec m.offset m.size).length = 2 := by
        rw [← es]
        apply length_window
        have := m5.inside m hm'
        omega
      have hs : storedItem t p "LASExtendedFlags" = packBits 2 packedExtended p := rfl
      rw [en, hs]
      apply repack_extended hlen
      intro q hq
      have hw := a5 c1 q hq
      have hlk := extended_unique q hq
      rcases h6 _ hw with ⟨e1, _, _⟩ | ⟨sh, wd, e0, _, _, _⟩ | ⟨sh, wd, e0, e1, e2, e3⟩ | ⟨_, _, e2, _⟩
      · cases congrArg AttrDef.datatype e1
      · omega
      · have := extended_unique _ e1
        rw [hlk] at this
        obtain ⟨rfl, rfl⟩ : q.2.1 = sh ∧ q.2.2 = wd := by
          have := Option.some.inj this
          exact ⟨congrArg Prod.fst this, congrArg Prod.snd this⟩
        exact value hw e3 hm' c2.symm
      · unfold packedFields at e2
        rw [if_neg (by omega)] at e2
        change packedExtended.lookup q.1 = none at e2
        rw [hlk] at e2
        cases e2
    · have hitem : storedItem t p m.name = lasValue p m.definition.name := by
        simp only [List.mem_cons, List.not_mem_nil, or_false, not_or] at c2
        show storedItem t p m.definition.name = _
        unfold storedItem
        rw [if_neg c2.2.1, if_neg c2.2.2.1, if_neg c2.2.2.2]
      rw [hitem]
      rcases h6 _ c1 with ⟨e1, _, _⟩ | ⟨sh, wd, e0, e1, _, _⟩ | ⟨sh, wd, e0, e1, _, _⟩ | ⟨_, _, _, e3⟩
      · exact absurd (show m.definition.name ∈ _ by rw [e1]; decide) c2
      · unfold packedFields at c3
        rw [if_pos e0, basic_unique _ e1] at c3
        cases c3
      · unfold packedFields at c3
        rw [if_neg (by omega), extended_unique _ e1] at c3
        cases c3
      · exact value c1 e3 hm' rfl
  have hpos : storedItem t p "LASLocalPosition" =
      some (writeNum .i32 (.int x) ++ writeNum .i32 (.int y) ++ writeNum .i32 (.int z)) := by
    have hs : storedItem t p "LASLocalPosition" = (lasPosition p).bind (storedPosition t) := if_pos rfl
    rw [hs]
    have hv : lasValue p "Position3D" = some (worldPosition t (convertVector .i32 .f64 (window rec 0 12))) := by
      rcases h6 _ a3 with ⟨_, _, e3⟩ | ⟨sh, wd, _, e1, _, _⟩ | ⟨sh, wd, _, e1, _, _⟩ | ⟨_, e0, _, _⟩
      · exact value a3 e3 (m := ⟨localPosition, 0⟩) (by rw [hat]; exact List.mem_cons_self) rfl
      · exact absurd rfl (packed_names _ _ _ (.inl e1))
      · exact absurd rfl (packed_names _ _ _ (.inr e1))
      · exact absurd (by decide) e0
    have hq : lasPosition p = some ⟨dequantize t.x (storedInt rec 0), dequantize t.y (storedInt rec 1),
        dequantize t.z (storedInt rec 2)⟩ := by
      unfold lasPosition
      rw [hv, Option.map_some, position_read ht b1]
    rw [hq, Option.bind_some]
    have q1 := coordinate_stored hx
    have q2 := coordinate_stored hy
    have q3 := coordinate_stored hz
    generalize dequantize t.x (storedInt rec 0) = u at q1 ⊢
    generalize dequantize t.y (storedInt rec 1) = v at q2 ⊢
    generalize dequantize t.z (storedInt rec 2) = w at q3 ⊢
    generalize writeNum .i32 (.int x) = a at q1 ⊢
    generalize writeNum .i32 (.int y) = b at q2 ⊢
    generalize writeNum .i32 (.int z) = c at q3 ⊢
    exact position_stored (p := ⟨u, v, w⟩) q1 q2 q3
  unfold storedRecord
  rw [← k3]
  have key : ((⟨localPosition, 0⟩ :: packedMembers 12 ds : List Member).map fun m => (m.name, m.size)).mapM
      (fun item => storedItem t p item.1) =
      some ((writeNum .i32 (.int x) ++ writeNum .i32 (.int y) ++ writeNum .i32 (.int z)) ::
        (packedMembers 12 ds).map fun m => window rec m.offset m.size) := by
    have hrest : ((packedMembers 12 ds).map fun m => (m.name, m.size)).mapM (fun item => storedItem t p item.1) =
        some ((packedMembers 12 ds).map fun m => window rec m.offset m.size) := by
      rw [List.mapM_map]
      exact mapM_some items
    rw [List.map_cons, List.mapM_cons, hrest]
    have hpos' : storedItem t p ((⟨localPosition, 0⟩ : Member).name, (⟨localPosition, 0⟩ : Member).size).1 = _ := hpos
    rw [hpos']
    rfl
  rw [key]
  show some (List.flatten _) = _
  rw [List.flatten_cons, b2]
  unfold window
  rw [List.take_of_length_le (by simp)]

end Pasture.Las
