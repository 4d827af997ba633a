import Verif.Lemmas.FloatSingle
import Verif.Lemmas.LasCopy
import Verif.Lemmas.LasExtra
import Verif.Lemmas.VoxelCentroid
import Verif.Props.LasReader
import Verif.Spec.LasSingle

/-!
# C87: positions read in single and in double precision
-/

namespace Pasture.Props

open BorrowedBuffer Spec Las Voxel

/-! ## How positions are filled -/

theorem calls_named {target raw : PointLayout} :
    ∀ c ∈ (if basicFlags ∈ raw.attributes.map Member.definition then
        packedBasic.flatMap fun (name, shift, width) => customise target name fun d =>
          [.transformed basicFlags d .u8 (bitField 1 shift width) true]
      else
        packedExtended.flatMap fun (name, shift, width) => customise target name fun d =>
          [.transformed extendedFlags d .u16 (bitField 2 shift width) true]), c.target.name ≠ "Position3D" := by
  have key : ∀ (name : String) (call : AttrDef → List MappingCall), name ≠ "Position3D" →
      (∀ d, ∀ c ∈ call d, c.target = d) → ∀ c ∈ customise target name call, c.target.name ≠ "Position3D" := by
    intro name call hne hcall c hc
    unfold customise at hc
    split at hc
    · rename_i m hf
      rw [hcall _ c hc]
      have := List.find?_some hf
      simp only [decide_eq_true_eq] at this
      show m.name ≠ _
      rw [this]
      exact hne
    · cases hc
  intro c hc
  split at hc
  · obtain ⟨x, hx, h⟩ := List.mem_flatMap.1 hc
    refine key x.1 _ ?_ ?_ c h
    · clear h hc; revert x; decide
    · intro d c hc
      rw [List.mem_singleton.1 hc]
      rfl
  · obtain ⟨x, hx, h⟩ := List.mem_flatMap.1 hc
    refine key x.1 _ ?_ ?_ c h
    · clear h hc; revert x; decide
    · intro d c hc
      rw [List.mem_singleton.1 hc]
      rfl

theorem plan_position {raw target : PointLayout} {t : Transforms} (ht : Solid target) {m : Member}
    (hm : m ∈ target.attributes) (hn : m.name = "Position3D") {c : MappingCall} (hc : positionCalls t m.definition = [c])
    (hct : c.target = m.definition) : lasPlan raw target t m.definition = c.rule := by
  have hf : target.attributes.find? (fun m => m.name = "Position3D") = some m := by
    have := ht.names
    revert hm this
    induction target.attributes with
    | nil => intro hm; cases hm
    | cons a as ih =>
      intro hm hnd
      rw [List.map_cons, List.nodup_cons] at hnd
      by_cases ha : a.name = "Position3D"
      · rw [List.find?_cons_of_pos (by simp [ha])]
        rcases List.mem_cons.1 hm with rfl | h
        · rfl
        · exact absurd (List.mem_map.2 ⟨m, h, by rw [hn, ha]⟩) hnd.1
      · rw [List.find?_cons_of_neg (by simp [ha])]
        rcases List.mem_cons.1 hm with rfl | h
        · exact absurd hn ha
        · exact ih h hnd.2
  unfold lasPlan planOf lasCalls
  rw [show customise target "Position3D" (positionCalls t) = [c] by unfold customise; rw [hf]; exact hc,
    List.foldl_append, fold_other]
  · show Plan.update _ c m.definition = _
    unfold Plan.update
    rw [if_pos hct.symm]
  · intro c' hc' he
    refine calls_named c' hc' ?_
    rw [he]
    exact hn

theorem get_apply {plan : Plan} {s q : Point} {d : AttrDef} {r : Rule} (hp : plan d = some r) {v : Bytes}
    (hv : s.get r.source = some v) {w : Bytes} (h : (plan.apply s q).get d = some w) : w = r.value v := by
  have key : ∀ q : Point, (plan.apply s q).lookup d = some w → w = r.value v := by
    intro q
    induction q with
    | nil => intro h; cases h
    | cons a as ih =>
      intro h
      unfold Plan.apply at h
      rw [List.map_cons, List.lookup_cons] at h
      by_cases hd : d = a.1
      · subst hd
        simp only [beq_self_eq_true, hp, hv, Option.some.injEq] at h
        exact h.symm
      · rw [beq_eq_false_iff_ne.2 hd] at h
        exact ih h
  exact key q h

/-- The value of the position attribute after a read. -/
theorem read_position {σ β : Type} [StoresRecords σ] [BorrowedBuffer β] {r : RawReader σ} {recs : List Bytes} {i : Nat}
    (h : Standing r recs i) (hl : LocalFirst r.recordsLayout) {target : PointLayout} (ht : Solid target) {m : Member}
    (hm : m ∈ target.attributes) (hn : m.name = "Position3D") {rule : Rule}
    (hp : lasPlan r.recordsLayout target r.transforms m.definition = some rule) (hs : rule.source = localPosition)
    {qs : List Point} {count : Nat} (hc : count ≤ qs.length) {consistent : β → Prop} {out : Out (Nat × β × RawReader σ)}
    (hread : ReadCorrectly r recs i target qs count consistent out) :
    ∃ n b' r', out = .ok (n, b', r') ∧ ∀ k rec, k < count → recs[i + k]? = some rec → ∀ data : Bytes,
      data.length = m.size → getAttribute b' m.definition k data = .ok (rule.value (window rec 0 12)) := by
  obtain ⟨b', r', h1, _, _, _, h5⟩ := hread
  refine ⟨_, b', r', h1, ?_⟩
  intro k rec hk hrec data hdata
  have hne : target ≠ r.recordsLayout := by
    rintro rfl
    exact hl.2 m hm hn
  have hlen : k < (readOver r.recordsLayout target r.transforms ((recs.drop i).take count) qs).length := by
    unfold readOver
    rw [List.length_mapIdx]
    omega
  obtain ⟨v, _, hv, _⟩ := value_at ht h5 hm hlen
  have hq : qs[k]? = some qs[k] := List.getElem?_eq_getElem (by omega)
  have hrk : ((recs.drop i).take count)[k]? = some rec := by
    rw [List.getElem?_take_of_lt hk, List.getElem?_drop]
    exact hrec
  have hpt : (readOver r.recordsLayout target r.transforms ((recs.drop i).take count) qs)[k]? =
      some ((lasPlan r.recordsLayout target r.transforms).apply (pointOf r.recordsLayout rec) qs[k]) := by
    unfold readOver
    rw [List.getElem?_mapIdx, hq, Option.map_some]
    simp only [hrk]
    unfold readPoint
    rw [if_neg hne]
  rw [hpt, Option.bind_some] at hv
  have hget : (pointOf r.recordsLayout rec).get rule.source = some (window rec 0 12) := by
    rw [hs]
    exact Las.lookup_map_def (g := fun m => window rec m.offset m.size) hl.1 h.solid.names
  rw [h5.getAttribute_eq _ _ _ hdata]
  unfold value?
  rw [hpt]
  show answer (Point.get _ _) = _
  rw [hv, get_apply hp hget hv]
  rfl

/-! ## The numbers -/

theorem read_single {x : F32} (hx : x.mag < 2 ^ 31) : Flt.ofBits .f32 (leNat (writeNum .f32 (.single x))) = x := by
  have := holdsF32_read (holdsF32_write hx)
  exact Num.single.inj this

theorem ofInt32_mag (z : Int) : (Flt.ofInt .f32 z).mag < 2 ^ 31 :=
  lt_of_le_of_lt (rounds_mag (ofInt_rounds usable_f32 z)) (by decide)

theorem read_local32 {z : Int} (h : -2 ^ 31 ≤ z ∧ z < 2 ^ 31) :
    readNum .f32 (convertNumber .i32 .f32 (writeNum .i32 (.int z))) = .single (Flt.ofInt .f32 z) := by
  unfold convertNumber
  rw [read_i32 h]
  exact holdsF32_read (holdsF32_write (ofInt32_mag z))

/-- A coordinate as it is read in single precision. -/
def singleRead (a : Axis) (z : Int) : F32 :=
  ((((Flt.ofInt .f32 z).cast .f64).mul a.scale).add a.offset).cast .f32

theorem record_start {rec : Bytes} (hr : 12 ≤ rec.length) : window rec 0 12 =
    writeNum .i32 (.int (storedInt rec 0)) ++ writeNum .i32 (.int (storedInt rec 1)) ++
      writeNum .i32 (.int (storedInt rec 2)) := by
  rw [write_storedInt rec 0 (by omega), write_storedInt rec 1 (by omega), write_storedInt rec 2 (by omega)]
  unfold window
  rw [show (12 : Nat) = 4 + 4 + 4 by rfl, List.take_add, List.take_add, List.drop_drop, List.drop_drop]

theorem position_read32 (t : Transforms) {rec : Bytes} (hr : 12 ≤ rec.length) :
    singlePosition (worldPosition32 t (convertVector .i32 .f32 (window rec 0 12))) =
      ⟨singleRead t.x (storedInt rec 0), singleRead t.y (storedInt rec 1), singleRead t.z (storedInt rec 2)⟩ := by
  have r0 := storedInt_range rec 0 (by omega)
  have r1 := storedInt_range rec 1 (by omega)
  have r2 := storedInt_range rec 2 (by omega)
  rw [record_start hr]
  obtain ⟨w1, w2, w3⟩ := window_three (writeNum_length .i32 (.int (storedInt rec 0)))
    (writeNum_length .i32 (.int (storedInt rec 1))) (writeNum_length .i32 (.int (storedInt rec 2)))
  unfold convertVector
  rw [w1, w2, w3]
  obtain ⟨u1, u2, u3⟩ := window_three (k := 4) (a := convertNumber .i32 .f32 (writeNum .i32 (.int (storedInt rec 0))))
    (b := convertNumber .i32 .f32 (writeNum .i32 (.int (storedInt rec 1))))
    (c := convertNumber .i32 .f32 (writeNum .i32 (.int (storedInt rec 2))))
    (writeNum_length .f32 _) (writeNum_length .f32 _) (writeNum_length .f32 _)
  unfold worldPosition32
  rw [u1, u2, u3, read_local32 r0, read_local32 r1, read_local32 r2]
  show singlePosition (writeNum .f32 (.single (singleRead t.x _)) ++ writeNum .f32 (.single (singleRead t.y _)) ++
    writeNum .f32 (.single (singleRead t.z _))) = _
  obtain ⟨v1, v2, v3⟩ := window_three (writeNum_length .f32 (.single (singleRead t.x (storedInt rec 0))))
    (writeNum_length .f32 (.single (singleRead t.y (storedInt rec 1))))
    (writeNum_length .f32 (.single (singleRead t.z (storedInt rec 2))))
  unfold singlePosition
  rw [show window _ 0 4 = _ from v1, show window _ 4 4 = _ from v2, show window _ 8 4 = _ from v3,
    read_single (x := singleRead t.x _) (cast_f32_mag _),
    read_single (x := singleRead t.y _) (cast_f32_mag _), read_single (x := singleRead t.z _) (cast_f32_mag _)]

/-- How far a coordinate read in single precision is from the file's: it is that of an integer at most 64 away. -/
theorem singleRead_near (a : Axis) {z : Int} (h : -2 ^ 31 ≤ z ∧ z < 2 ^ 31) :
    ∃ z' : Int, singleRead a z = rounded a z' ∧ |z - z'| ≤ 64 ∧ (|z| ≤ 2 ^ 24 → z' = z) := by
  obtain ⟨z', h1, h2, h3⟩ := ofInt32_double h
  refine ⟨z', ?_, by rw [Int.abs_eq_natAbs]; omega, fun hz => h3 (by rw [Int.abs_eq_natAbs] at hz; omega)⟩
  unfold singleRead rounded
  rw [h1]

/-! ## C87 -/

theorem format_first (n : Nat) (hn : n ≤ 10) : ∃ f raw, Format.new n = .ok f ∧
    pointLayoutFromMetadata ⟨f, none⟩ true = .ok raw ∧ LocalFirst raw := by
  have key : ∀ n : Fin 11, ∃ f raw, Format.new n = .ok f ∧ pointLayoutFromMetadata ⟨f, none⟩ true = .ok raw ∧
      LocalFirst raw := by
    intro n
    match n with
    | 0 | 1 | 2 | 3 | 4 | 5 | 6 | 7 | 8 | 9 | 10 => exact ⟨_, _, rfl, rfl, by decide +kernel⟩
  exact key ⟨n, by omega⟩

/-- Opening a LAS file gives a reader the theorems below apply to. -/
theorem C87_open_las (n : Nat) (hn : n ≤ 10) (exact : Bool) (t : Transforms) (recs : List Bytes)
    (hlen : ∀ rec ∈ recs, rec.length = lasRecordLength n) (data : Bytes) (offset : Nat)
    (hdata : window data offset (recs.length * lasRecordLength n) = recs.flatten) :
    ∃ f r, Format.new n = .ok f ∧
      openLas data ⟨f, none⟩ recs.length t offset (lasRecordLength n) exact = .ok r ∧ Standing r recs 0 ∧
      LocalFirst r.recordsLayout ∧ r.transforms = t := by
  obtain ⟨f, l, raw, h1, h2, h3, h4, h5, h6, h7, h8, _⟩ := format_layouts n hn exact t
  obtain ⟨f', raw', g1, g2, g3⟩ := format_first n hn
  obtain rfl : f = f' := by rw [h1] at g1; cases g1; rfl
  obtain rfl : raw = raw' := by rw [h3] at g2; cases g2; rfl
  refine ⟨f, ⟨⟨data, offset⟩, recs.length, t, l, raw, 0, offset, lasRecordLength n⟩, h1, ?_, ?_, g3, rfl⟩
  · unfold openLas RawReader.ofHeader
    rw [h2, h3]
    rfl
  · exact ⟨⟨hdata, by simp⟩, rfl, rfl, Nat.zero_le _, hlen, h4, h5, h6⟩

/-- Opening a LAZ file. -/
theorem C87_open_laz (n : Nat) (hn : n ≤ 8) (exact : Bool) (t : Transforms) (recs : List Bytes)
    (hlen : ∀ rec ∈ recs, rec.length = lasRecordLength n) (offset : Nat) :
    ∃ f r, Format.new n = .ok f ∧
      openLaz recs ⟨f, none⟩ recs.length t offset (lasRecordLength n) exact = .ok r ∧ Standing r recs 0 ∧
      LocalFirst r.recordsLayout ∧ r.transforms = t := by
  obtain ⟨f, l, raw, h1, h2, h3, h4, h5, h6, h7, h8, h9⟩ := format_layouts n (by omega) exact t
  obtain ⟨f', raw', g1, g2, g3⟩ := format_first n (by omega)
  obtain rfl : f = f' := by rw [h1] at g1; cases g1; rfl
  obtain rfl : raw = raw' := by rw [h3] at g2; cases g2; rfl
  refine ⟨f, ⟨⟨lasRecordLength n, recs, 0⟩, recs.length, t, l, raw, 0, offset, lasRecordLength n⟩, h1, ?_, ?_, g3, rfl⟩
  · unfold openLaz RawReader.ofHeader
    rw [h9, decide_eq_false (by omega), h2, h3]
    rfl
  · exact ⟨⟨⟨[], by simp⟩, rfl, rfl⟩, rfl, rfl, Nat.zero_le _, hlen, h4, h5, h6⟩

theorem record_long {σ : Type} [StoresRecords σ] {r : RawReader σ} {recs : List Bytes} {i : Nat} (h : Standing r recs i)
    (hl : LocalFirst r.recordsLayout) {k : Nat} {rec : Bytes} (hrec : recs[i + k]? = some rec) : 12 ≤ rec.length := by
  rw [h.sizes rec (List.mem_of_getElem? hrec), ← h.described]
  exact h.solid.inside _ hl.1

section
variable {σ β : Type} [StoresRecords σ] [BorrowedBuffer β] {r : RawReader σ} {recs : List Bytes} {i : Nat}
  (h : Standing r recs i) (hl : LocalFirst r.recordsLayout) {target : PointLayout} (ht : Solid target) {m : Member}
  (hm : m ∈ target.attributes) {qs : List Point} {count : Nat} (hc : count ≤ qs.length) {consistent : β → Prop}
  {out : Out (Nat × β × RawReader σ)} (hread : ReadCorrectly r recs i target qs count consistent out)
include h hl ht hm hc hread

/-- **C87**, positions of any layout in double precision: integer times scale plus offset. -/
theorem C87_double (hd : m.definition = ⟨"Position3D", .vec3f64⟩) (ha : Axes OrdinaryAxis r.transforms) :
    ∃ n b' r', out = .ok (n, b', r') ∧ ∀ k rec, k < count → recs[i + k]? = some rec → ∃ v : Bytes,
      (∀ data : Bytes, data.length = 24 → getAttribute b' m.definition k data = .ok v) ∧
      positionOf v = ⟨dequantize r.transforms.x (storedInt rec 0), dequantize r.transforms.y (storedInt rec 1),
        dequantize r.transforms.z (storedInt rec 2)⟩ := by
  have hn : m.name = "Position3D" := by show m.definition.name = _; rw [hd]
  have hp := plan_position (raw := r.recordsLayout) (t := r.transforms) ht hm hn
    (c := .transformed localPosition m.definition .vec3f64 (worldPosition r.transforms) false) (by rw [hd]; rfl) rfl
  obtain ⟨n, b', r', h1, h2⟩ := read_position h hl ht hm hn
    (rule := ⟨localPosition, fun v => worldPosition r.transforms (convertVector .i32 .f64 v)⟩)
    (by rw [hp, hd]; rfl) rfl hc hread
  refine ⟨n, b', r', h1, fun k rec hk hrec => ⟨_, fun data hdata => h2 k rec hk hrec data ?_, ?_⟩⟩
  · rw [hdata]; show 24 = m.definition.size; rw [hd]; rfl
  · exact position_read ha (record_long h hl hrec)

/-- **C87 in part**, positions in single precision: integers up to 2^24 give the position of the file rounded to single
    precision. Larger ones are rounded before they are scaled: the position is that of an integer at most 64 away. -/
theorem C87_single_partial (hd : m.definition = ⟨"Position3D", .vec3f32⟩) :
    ∃ n b' r', out = .ok (n, b', r') ∧ ∀ k rec, k < count → recs[i + k]? = some rec →
      ∃ (v : Bytes) (x y z : Int),
      (∀ data : Bytes, data.length = 12 → getAttribute b' m.definition k data = .ok v) ∧
      singlePosition v = ⟨rounded r.transforms.x x, rounded r.transforms.y y, rounded r.transforms.z z⟩ ∧
      (|storedInt rec 0 - x| ≤ 64 ∧ |storedInt rec 1 - y| ≤ 64 ∧ |storedInt rec 2 - z| ≤ 64) ∧
      (|storedInt rec 0| ≤ 2 ^ 24 → x = storedInt rec 0) ∧ (|storedInt rec 1| ≤ 2 ^ 24 → y = storedInt rec 1) ∧
      (|storedInt rec 2| ≤ 2 ^ 24 → z = storedInt rec 2) := by
  have hn : m.name = "Position3D" := by show m.definition.name = _; rw [hd]
  have hp := plan_position (raw := r.recordsLayout) (t := r.transforms) ht hm hn
    (c := .transformed localPosition m.definition .vec3f32 (worldPosition32 r.transforms) false) (by rw [hd]; rfl) rfl
  obtain ⟨n, b', r', h1, h2⟩ := read_position h hl ht hm hn
    (rule := ⟨localPosition, fun v => worldPosition32 r.transforms (convertVector .i32 .f32 v)⟩)
    (by rw [hp, hd]; rfl) rfl hc hread
  refine ⟨n, b', r', h1, fun k rec hk hrec => ?_⟩
  have hrl := record_long h hl hrec
  obtain ⟨x, x1, x2, x3⟩ := singleRead_near r.transforms.x (storedInt_range rec 0 (by omega))
  obtain ⟨y, y1, y2, y3⟩ := singleRead_near r.transforms.y (storedInt_range rec 1 (by omega))
  obtain ⟨z, z1, z2, z3⟩ := singleRead_near r.transforms.z (storedInt_range rec 2 (by omega))
  refine ⟨_, x, y, z, fun data hdata => h2 k rec hk hrec data ?_, ?_, ⟨x2, y2, z2⟩, x3, y3, z3⟩
  · rw [hdata]; show 12 = m.definition.size; rw [hd]; rfl
  · rw [← x1, ← y1, ← z1]
    exact position_read32 r.transforms hrl

end

/-! ## C87 does not hold -/

/-- Points with just a position, in single precision. -/
def onlyPosition : PointLayout := ⟨[⟨⟨"Position3D", .vec3f32⟩, 0⟩], 12, 4⟩

theorem onlyPosition_solid : Solid onlyPosition where
  nonempty := by decide
  names := by decide
  positive := by decide
  inside := by decide
  apart := by decide

/-- Every file can be read that way. -/
theorem onlyPosition_readable {raw : PointLayout} (hl : LocalFirst raw) (t : Transforms) : Readable raw onlyPosition t := by
  refine ⟨?_, ?_, ?_⟩
  · intro m hm _
    rw [List.mem_singleton.1 hm]
    exact .inr rfl
  · rintro m hm ⟨m', hm', he⟩
    rw [List.mem_singleton.1 hm] at he
    exact absurd he (hl.2 m' hm')
  · intro c hc
    have : c = .transformed localPosition ⟨"Position3D", .vec3f32⟩ .vec3f32 (worldPosition32 t) false := by
      unfold lasCalls at hc
      rcases List.mem_append.1 hc with h | h
      · exact List.mem_singleton.1 h
      · exfalso
        split at h <;>
        · obtain ⟨x, hx, h⟩ := List.mem_flatMap.1 h
          simp only [packedBasic, packedExtended, List.mem_cons, List.not_mem_nil, or_false] at hx
          rcases hx with rfl | rfl | rfl | rfl | rfl | rfl <;> cases h
    subst this
    exact ⟨List.mem_map.2 ⟨_, hl.1, rfl⟩, List.mem_singleton.2 rfl, rfl, rfl⟩

/-- Scale 0.001, offset -16777. -/
def farAxis : Axis := ⟨.ofBits .f64 0x3f50624dd2f1a9fc, Flt.ofInt .f64 (-16777)⟩

/-- A record that begins with the integers 16777217, 5 and 7. -/
def largeRecord (n : Nat) : Bytes := [1, 0, 0, 1, 5, 0, 0, 0, 7, 0, 0, 0] ++ zeros (lasRecordLength n - 12)

theorem record_lengths : ∀ n ≤ 10, 12 ≤ lasRecordLength n := by decide

/-- The part of C87 that does not hold: in files of every format, the integer 16777217 with scale 0.001 and offset
    -16777 is x = 0.217, and is read as 0.216 in single precision. -/
theorem C87_single_violated (n : Nat) (hn : n ≤ 10) : ∃ f r,
    Format.new n = .ok f ∧
    openLas (largeRecord n) ⟨f, none⟩ 1 ⟨farAxis, farAxis, farAxis⟩ 0 (lasRecordLength n) false = .ok r ∧
    ∃ k b' r', PointReader.readInto r (OwningBuffer.resize (VectorBuffer.newFromLayout onlyPosition) 1) 1 = .ok (k, b', r') ∧
    ∃ v : Bytes, getAttribute b' ⟨"Position3D", .vec3f32⟩ 0 (zeros 12) = .ok v ∧
      (singlePosition v).x ≠ rounded farAxis (storedInt (largeRecord n) 0) ∧
      (singlePosition v).x = rounded farAxis (storedInt (largeRecord n) 0 - 1) ∧
      (singlePosition v).y = rounded farAxis 5 ∧ (singlePosition v).z = rounded farAxis 7 := by
  have h12 := record_lengths n hn
  have hlen : (largeRecord n).length = lasRecordLength n := by simp [largeRecord, zeros]; omega
  obtain ⟨f, r, h1, h2, h3, h4, h5⟩ := C87_open_las n hn false ⟨farAxis, farAxis, farAxis⟩ [largeRecord n]
    (by intro rec hrec; rw [List.mem_singleton.1 hrec]; exact hlen) (largeRecord n) 0 (by
      unfold window
      rw [List.drop_zero, List.flatten_cons, List.flatten_nil, List.append_nil]
      exact List.take_of_length_le (by simp [hlen]))
  refine ⟨f, r, h1, h2, ?_⟩
  obtain ⟨f1, f2⟩ := ReadOwner.fresh (β := VectorBuffer) onlyPosition_solid 1
  have hread := C38_las_read_into_interleaved_partial [largeRecord n] 0 onlyPosition onlyPosition_solid _ 1 (by simp) r h3
    (.inr (onlyPosition_readable h4 _)) _ f1 f2
  have hm : (⟨⟨"Position3D", .vec3f32⟩, 0⟩ : Member) ∈ onlyPosition.attributes := List.mem_singleton.2 rfl
  have hp := plan_position (raw := r.recordsLayout) (t := r.transforms) onlyPosition_solid hm rfl
    (c := .transformed localPosition ⟨"Position3D", .vec3f32⟩ .vec3f32 (worldPosition32 r.transforms) false) rfl rfl
  obtain ⟨k, b', r', g1, g2⟩ := read_position h3 h4 onlyPosition_solid hm rfl
    (rule := ⟨localPosition, fun v => worldPosition32 r.transforms (convertVector .i32 .f32 v)⟩)
    (by rw [hp]; rfl) rfl (by simp) hread
  refine ⟨k, b', r', g1, _, g2 0 (largeRecord n) (by omega) rfl (zeros 12) (by simp [zeros]; rfl), ?_⟩
  rw [position_read32 _ (by omega), h5]
  have s0 : storedInt (largeRecord n) 0 = 16777217 := by
    show intOfBits .i32 (leNat [1, 0, 0, 1]) = _
    decide
  have s1 : storedInt (largeRecord n) 1 = 5 := by
    show intOfBits .i32 (leNat [5, 0, 0, 0]) = _
    decide
  have s2 : storedInt (largeRecord n) 2 = 7 := by
    show intOfBits .i32 (leNat [7, 0, 0, 0]) = _
    decide
  simp only [s0, s1, s2]
  exact ⟨by decide +kernel, by decide +kernel, by decide +kernel, by decide +kernel⟩

/-- The theorem on single precision applies to LAZ files of formats 0 to 8 with any number of points, read into columns. -/
example (n : Nat) (hn : n ≤ 8) (t : Transforms) (recs : List Bytes) (hlen : ∀ rec ∈ recs, rec.length = lasRecordLength n) :
    ∃ f r, Format.new n = .ok f ∧ openLaz recs ⟨f, none⟩ recs.length t 400 (lasRecordLength n) false = .ok r ∧
      ∃ k b' r', PointReader.readInto r (OwningBuffer.resize (HashMapBuffer.newFromLayout onlyPosition) recs.length)
        recs.length = .ok (k, b', r') ∧ ∀ j rec, recs[j]? = some rec → |storedInt rec 0| ≤ 2 ^ 24 → ∃ v : Bytes,
          getAttribute b' ⟨"Position3D", .vec3f32⟩ j (zeros 12) = .ok v ∧
          (singlePosition v).x = rounded t.x (storedInt rec 0) := by
  obtain ⟨f, r, h1, h2, h3, h4, h5⟩ := C87_open_laz n hn false t recs hlen 400
  refine ⟨f, r, h1, h2, ?_⟩
  obtain ⟨f1, f2⟩ := ReadOwner.fresh (β := HashMapBuffer) onlyPosition_solid recs.length
  have hread := C38_laz_read_into_columnar_partial recs 0 onlyPosition onlyPosition_solid _ recs.length (by simp) r h3
    (.inr (onlyPosition_readable h4 _)) _ f1 f2
  have hm : (⟨⟨"Position3D", .vec3f32⟩, 0⟩ : Member) ∈ onlyPosition.attributes := List.mem_singleton.2 rfl
  obtain ⟨k, b', r', g1, g2⟩ := C87_single_partial h3 h4 onlyPosition_solid hm (by simp) hread rfl
  refine ⟨k, b', r', g1, ?_⟩
  intro j rec hj hz
  have hjl : j < recs.length := (List.getElem?_eq_some_iff.1 hj).1
  obtain ⟨v, x, y, z, k1, k2, _, k4, _⟩ := g2 j rec hjl (by rw [Nat.zero_add]; exact hj)
  refine ⟨v, k1 _ (by simp [zeros]), ?_⟩
  rw [k2, h5, k4 hz]

end Pasture.Props
