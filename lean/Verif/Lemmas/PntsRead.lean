import Verif.Lemmas.PntsReader

/-!
# Lemmas on the reader of 3D Tiles point clouds: reading points
-/

namespace Pasture.Tiles3d

open Spec Spec.Pnts Props Las PntsReader BorrowedBuffer BorrowedMutBuffer OwningBuffer

theorem opened_have {r : PntsReader} {ps : List Point} {center : Option (P3 F64)} {i : Nat} (h : Opened r ps center i) :
    HaveAttributes (r.layout.attributes.map Member.definition) ps := ⟨h.attributes, h.sizes⟩

theorem defaultPlan_named {source : PointLayout} (hs : Solid source) {m : Member} (hm : m ∈ source.attributes)
    {d : AttrDef} (hn : d.name = m.name) :
    defaultPlan source d = (conversion m.datatype d.datatype).map fun f => ⟨m.definition, f⟩ := by
  unfold defaultPlan
  rw [show source.attributes.find? (fun m' => m'.name = d.name) = some m from
    (getByName_iff source hs.names d.name m).2 ⟨hm, hn.symm⟩]

section
variable {r : PntsReader} {ps : List Point} {center : Option (P3 F64)} {i : Nat}

theorem readValue_eq {β : Type} [BorrowedMutBuffer β] (h : Opened r ps center i) {m dst : Member}
    (hm : m ∈ r.layout.attributes) {f : Bytes → Bytes} {c : Option Converter}
    (hplan : defaultPlan r.layout dst.definition = some ⟨m.definition, f⟩)
    (hsuit : Suits c m.datatype dst.datatype f) {o : Nat}
    (hs : window r.data o (ps.length * m.size) = columnOf m.definition ps) {k : Nat} (hk : i + k < ps.length) :
    (∀ b : β, readValue r.data (o + i * m.size) m dst c b k =
        setAttribute b dst.definition (0 + k) (planValue (defaultPlan r.layout) ps i dst.definition k)) ∧
      (planValue (defaultPlan r.layout) ps i dst.definition k).length = dst.size := by
  have hv := (opened_have h).values (List.mem_map_of_mem (f := Member.definition) hm)
  obtain ⟨v, hv1, hv2⟩ := hv _ (List.getElem_mem hk)
  have hW : planValue (defaultPlan r.layout) ps i dst.definition k = f v := by
    unfold planValue
    simp only [hplan, Option.bind_some, List.getElem?_eq_getElem hk, hv1, Option.map_some, Option.getD_some]
  have hread := column_value (d := m.definition) (h.solid.positive m hm) hv hs (List.getElem?_eq_getElem hk) hv1
  rw [Nat.add_mul, ← Nat.add_assoc] at hread
  rw [hW, Nat.zero_add]
  have hread : readAt r.data (o + i * m.size + k * m.size) m.size = .ok v := hread
  rcases hsuit with ⟨rfl, ht, rfl⟩ | ⟨conv, rfl, hc⟩
  · refine ⟨?_, ?_⟩
    · intro b
      unfold readValue
      rw [hread]
      rfl
    · show v.length = dst.datatype.size
      rw [hv2, ← ht]
      rfl
  · refine ⟨?_, hc.size v⟩
    intro b
    unfold readValue
    rw [hread]
    simp only [bind, Except.bind, hc.run v (zeros dst.size) hv2 (by simp [zeros]; rfl)]

theorem opened_step (h : Opened r ps center i) {target : PointLayout} (hcv : Convertible r.layout target)
    (htl : Solid target) {m : Member} (hm : m ∈ r.layout.attributes) {dst : Member}
    (hd : target.getAttributeByName m.name = some dst) :
    dst ∈ target.attributes ∧ ∃ o f c, r.attributeOffsets.lookup m.name = some o ∧
      window r.data o (ps.length * m.size) = columnOf m.definition ps ∧
      defaultPlan r.layout dst.definition = some ⟨m.definition, f⟩ ∧
      getConverterForAttributes m.definition dst.definition = .ok c ∧ Suits c m.datatype dst.datatype f := by
  obtain ⟨hd1, hd2⟩ := (getByName_iff target htl.names m.name dst).1 hd
  obtain ⟨f, hf⟩ := Option.isSome_iff_exists.1 (hcv m hm dst hd1 hd2)
  obtain ⟨o, ho1, ho2⟩ := h.stored m hm
  obtain ⟨c, hc1, hc2⟩ := getConverter_suits (s := m.definition) (t := dst.definition) hd2.symm hf
  refine ⟨hd1, o, f, c, ho1, ho2, ?_, hc1, hc2⟩
  rw [defaultPlan_named h.solid hm (d := dst.definition) hd2]
  show (conversion m.datatype dst.datatype).map _ = _
  rw [hf]
  rfl

theorem readLoop_records {β : Type} [OwningBuffer β] [HoldsRecords β] (h : Opened r ps center i) {target : PointLayout}
    (htl : Solid target) (hcv : Convertible r.layout target) {rs : List Bytes} (hrs : AllLen target.size rs) {n : Nat}
    (hn : i + n ≤ ps.length) (hnr : n ≤ rs.length) :
    ∃ rs', AllLen target.size rs' ∧
      forLoop r.layout.attributes (HoldsRecords.ofRecords target rs : β) (r.readAttribute target n) =
        .ok (HoldsRecords.ofRecords target rs') ∧
      rs'.map (pointOf target) = (defaultPlan r.layout).convert ps ⟨i, i + n⟩ (rs.map (pointOf target)) ⟨0, n⟩ := by
  obtain ⟨rs', g1, g2, g3⟩ := fillColumns_loop (β := β) htl (fun m : Member => target.getAttributeByName m.name)
    (planValue (defaultPlan r.layout) ps i) (c := 0) (n := n) (N := rs.length) (body := r.readAttribute target n)
    r.layout.attributes (by
      intro m hm dst hd
      obtain ⟨d1, o, f, c, d2, d3, d4, d5, d6⟩ := opened_step h hcv htl hm hd
      exact ⟨d1, fun k hk => (readValue_eq (β := β) h hm d4 d6 d3 (by omega)).2⟩) (by
      intro m hm xs hx hxl
      unfold readAttribute
      cases hd : target.getAttributeByName m.name with
      | none => rfl
      | some dst =>
        obtain ⟨d1, o, f, c, d2, d3, d4, d5, d6⟩ := opened_step h hcv htl hm hd
        simp only [d2, d5, expectSome, bind, Except.bind]
        rw [h.index]
        exact fillColumn_loop htl d1 (fun k hk => (readValue_eq (β := β) h hm d4 d6 d3 (by omega)).2) hx (by omega)
          (fun b k hk => (readValue_eq (β := β) h hm d4 d6 d3 (by omega)).1 b)) rs hrs rfl
  refine ⟨rs', g1, g2, ?_⟩
  have hkey : ∀ q ∈ rs.map (pointOf target), ∀ kv ∈ q, ∃ dst ∈ target.attributes, kv.1 = dst.definition := by
    intro q hq kv hkv
    obtain ⟨rec, _, rfl⟩ := List.mem_map.1 hq
    obtain ⟨dst, hdst, rfl⟩ := List.mem_map.1 hkv
    exact ⟨dst, hdst, rfl⟩
  rw [g3, filled_plan (plan := defaultPlan r.layout) (a := i) (c := 0)]
  · rw [Nat.zero_add]
  · intro q hq kv hkv
    obtain ⟨dst, hdst, hk⟩ := hkey q hq kv hkv
    rw [hk]
    constructor
    · intro hin
      obtain ⟨m, hm, he⟩ := List.mem_filterMap.1 hin
      cases hd : target.getAttributeByName m.name with
      | none => rw [hd] at he; cases he
      | some dst' =>
        rw [hd] at he
        obtain ⟨d1, o, f, c, d2, d3, d4, d5, d6⟩ := opened_step h hcv htl hm hd
        rw [← Option.some.inj he, d4]
        rfl
    · intro hp
      unfold defaultPlan at hp
      cases hf : r.layout.attributes.find? (fun m => m.name = dst.definition.name) with
      | none => rw [hf] at hp; cases hp
      | some m =>
        obtain ⟨hm1, hm2⟩ := (getByName_iff r.layout h.solid.names dst.definition.name m).1 hf
        refine List.mem_filterMap.2 ⟨m, hm1, ?_⟩
        rw [(getByName_iff target htl.names m.name dst).2 ⟨hdst, hm2.symm⟩]
        rfl
  · intro q hq kv hkv rule hr p hp
    obtain ⟨dst, hdst, hk⟩ := hkey q hq kv hkv
    rw [hk] at hr
    unfold defaultPlan at hr
    cases hf : r.layout.attributes.find? (fun m => m.name = dst.definition.name) with
    | none => rw [hf] at hr; cases hr
    | some m =>
      rw [hf] at hr
      dsimp only at hr
      cases hcf : conversion m.datatype dst.definition.datatype with
      | none => rw [hcf] at hr; cases hr
      | some g =>
        rw [hcf] at hr
        cases hr
        have hm1 := ((getByName_iff r.layout h.solid.names dst.definition.name m).1 hf).1
        obtain ⟨v, hv, _⟩ := (opened_have h).values (List.mem_map_of_mem (f := Member.definition) hm1) p hp
        exact ⟨v, hv⟩
  · exact hn

end

/-! ## The center -/

theorem moved32_eq (c : P3 F64) (v : Bytes) :
    onComponents .f32 (shift32 c.x) (shift32 c.y) (shift32 c.z) v = movedPosition c .vec3f32 v := rfl

theorem moved64_eq (c : P3 F64) (v : Bytes) :
    onComponents .f64 (shift64 c.x) (shift64 c.y) (shift64 c.z) v = movedPosition c .vec3f64 v := rfl

theorem transformed_moved {l : PointLayout} (hl : Solid l) {m : Member} (hm : m ∈ l.attributes)
    (hn : m.name = "Position3D") (c : P3 F64) (rs : List Bytes) :
    transformed m.definition (fun _ v => movedPosition c m.datatype v) (rs.map (pointOf l)) =
      (rs.map (pointOf l)).map (movedPoint c) := by
  apply List.ext_getElem?
  intro j
  unfold transformed
  rw [List.getElem?_mapIdx, List.getElem?_map (f := movedPoint c), List.getElem?_map]
  cases rs[j]? with
  | none => rfl
  | some rec =>
    simp only [Option.map_some, pointOf_get, find_def_mem hl hm]
    congr 1
    unfold Point.set movedPoint pointOf
    rw [List.map_map, List.map_map]
    apply List.map_congr_left
    intro m' hm'
    simp only [Function.comp_apply]
    by_cases he : m'.definition = m.definition
    · have : m' = m := by
        have h1 := find_def_mem hl hm'
        rw [he, find_def_mem hl hm] at h1
        exact (Option.some.inj h1).symm
      subst this
      rw [if_pos rfl, if_pos (show m'.definition.name = _ from hn)]
      rfl
    · rw [if_neg he, if_neg]
      intro hc
      apply he
      have h1 := (getByName_iff l hl.names "Position3D" m').2 ⟨hm', hc⟩
      rw [(getByName_iff l hl.names "Position3D" m).2 ⟨hm, hn⟩] at h1
      rw [Option.some.inj h1]

theorem movedPoint_none {l : PointLayout} (h : l.getAttributeByName "Position3D" = none) (c : P3 F64) (rec : Bytes) :
    movedPoint c (pointOf l rec) = pointOf l rec := by
  unfold movedPoint pointOf
  rw [List.map_map]
  apply List.map_congr_left
  intro m hm
  simp only [Function.comp_apply]
  rw [if_neg]
  intro hc
  unfold PointLayout.getAttributeByName at h
  rw [List.find?_eq_none] at h
  exact h m hm (decide_eq_true hc)

theorem moved_length (c : P3 F64) {dt : DataType} (hdt : dt = .vec3f32 ∨ dt = .vec3f64) (v : Bytes) :
    (movedPosition c dt v).length = dt.size := by
  rcases hdt with rfl | rfl
  · rw [← moved32_eq]
    unfold onComponents
    simp only [List.length_append, writeNum_length]
    rfl
  · rw [← moved64_eq]
    unfold onComponents
    simp only [List.length_append, writeNum_length]
    rfl

theorem applyCenter_records {β : Type} [OwningBuffer β] [HoldsRecords β] (r : PntsReader) {target : PointLayout}
    (htl : Solid target) (hmv : r.metadata.rtcCenter ≠ none → Movable target) {rs : List Bytes} (hrs : AllLen target.size rs) :
    ∃ rs', AllLen target.size rs' ∧
      r.applyRtcCenter (HoldsRecords.ofRecords target rs : β) = .ok (HoldsRecords.ofRecords target rs') ∧
      rs'.map (pointOf target) = (rs.map (pointOf target)).map (placed .absolute r.metadata.rtcCenter) := by
  have hlay : BorrowedBuffer.layout (HoldsRecords.ofRecords target rs : β) = target :=
    (HoldsRecords.shows (β := β) htl hrs).layout_eq
  unfold applyRtcCenter
  rw [hlay]
  cases hc : r.metadata.rtcCenter with
  | none =>
    refine ⟨rs, hrs, rfl, ?_⟩
    rw [show placed .absolute none = id from rfl, List.map_id]
  | some c =>
    have hmv := hmv (by rw [hc]; simp)
    rw [show placed .absolute (some c) = movedPoint c from rfl]
    cases hp : target.getAttributeByName position3D.name with
    | none =>
      refine ⟨rs, hrs, rfl, ?_⟩
      rw [List.map_map]
      apply List.map_congr_left
      intro rec _
      exact (movedPoint_none hp c rec).symm
    | some m =>
      obtain ⟨hm, hn⟩ := (getByName_iff target htl.names _ m).1 hp
      have hn : m.name = "Position3D" := hn
      obtain ⟨rs', t1, t2, t3⟩ := transform_records (β := β) htl hrs hm (fun _ v => movedPosition c m.datatype v)
        (fun i v _ => moved_length c (hmv m hm hn) v)
      refine ⟨rs', t1, ?_, by rw [t3, transformed_moved htl hm hn]⟩
      dsimp only
      rcases hmv m hm hn with hdt | hdt
      · rw [hdt] at t2 ⊢
        exact t2
      · rw [hdt] at t2 ⊢
        exact t2

/-! ## One read -/

section
variable {r : PntsReader} {ps : List Point} {center : Option (P3 F64)} {i : Nat}

theorem readInto_records {β : Type} [OwningBuffer β] [HoldsRecords β] (h : Opened r ps center i) {target : PointLayout}
    (htl : Solid target) (hcv : Convertible r.layout target)
    (hmv : r.mode = .absolute → center ≠ none → Movable target) {rs : List Bytes} (hrs : AllLen target.size rs)
    {count : Nat} (hpos : 0 < min count (ps.length - i)) (hn : min count (ps.length - i) ≤ rs.length) :
    ∃ rs' r', r.readInto (HoldsRecords.ofRecords target rs : β) count =
        .ok (min count (ps.length - i), HoldsRecords.ofRecords target rs', r') ∧
      SameTile r r' ∧ Opened r' ps center (i + min count (ps.length - i)) ∧ AllLen target.size rs' ∧
      rs'.map (pointOf target) = ((defaultPlan r.layout).convert ps ⟨i, i + min count (ps.length - i)⟩
        (rs.map (pointOf target)) ⟨0, min count (ps.length - i)⟩).map (placed r.mode center) := by
  have hin := h.inside
  have hN : min (r.metadata.pointsLength - r.currentPointIndex) count = min count (ps.length - i) := by
    rw [h.count, h.index, Nat.min_comm]
  generalize hnn : min count (ps.length - i) = n at *
  have hle : i + n ≤ ps.length := by omega
  obtain ⟨rs1, a1, a2, a3⟩ := readLoop_records (β := β) h htl hcv hrs hle hn
  have hlay : BorrowedBuffer.layout (HoldsRecords.ofRecords target rs : β) = target :=
    (HoldsRecords.shows (β := β) htl hrs).layout_eq
  have hopen : Opened { r with currentPointIndex := r.currentPointIndex + n } ps center (i + n) :=
    ⟨by show r.currentPointIndex + n = _; rw [h.index], hle, h.count, h.center, h.solid, h.attributes, h.sizes, h.stored⟩
  have hread : r.readInto (HoldsRecords.ofRecords target rs : β) count =
      (if r.mode = .absolute then
        ({ r with currentPointIndex := r.currentPointIndex + n } : PntsReader).applyRtcCenter
          (HoldsRecords.ofRecords target rs1 : β) else pure (HoldsRecords.ofRecords target rs1)).bind
        fun b => .ok (n, b, { r with currentPointIndex := r.currentPointIndex + n }) := by
    unfold PntsReader.readInto
    dsimp only
    rw [hN, hlay]
    show (bailIf (decide (n = 0))).bind _ = _
    rw [show bailIf (decide (n = 0)) = .ok () by rw [decide_eq_false (by omega)]; rfl]
    show (forLoop r.layout.attributes (HoldsRecords.ofRecords target rs : β) (r.readAttribute target n)).bind _ = _
    rw [a2]
    by_cases hmode : r.mode = .absolute
    · simp only [hmode, if_true]
      rfl
    · simp only [hmode, if_false]
      rfl
  by_cases hmode : r.mode = .absolute
  · obtain ⟨rs2, b1, b2, b3⟩ := applyCenter_records (β := β)
      ({ r with currentPointIndex := r.currentPointIndex + n } : PntsReader) htl
      (fun hne => hmv hmode (by rw [← h.center]; exact hne)) a1
    refine ⟨rs2, { r with currentPointIndex := r.currentPointIndex + n }, ?_, ⟨rfl, rfl, rfl, rfl, rfl⟩, hopen, b1, ?_⟩
    · rw [hread, if_pos hmode, b2]
      rfl
    · rw [b3, a3, hmode, ← h.center]
  · refine ⟨rs1, { r with currentPointIndex := r.currentPointIndex + n }, ?_, ⟨rfl, rfl, rfl, rfl, rfl⟩, hopen, a1, ?_⟩
    · rw [hread, if_neg hmode]
      rfl
    · rw [a3, show placed r.mode center = id by
        cases hm : r.mode with
        | relativeToCenter => rfl
        | absolute => exact absurd hm hmode, List.map_id]

/-- Nothing to read: an error. -/
theorem readInto_nothing {β : Type} [BorrowedMutBuffer β] (h : Opened r ps center i) (b : β) {count : Nat}
    (hz : min count (ps.length - i) = 0) : r.readInto b count = .error .err := by
  unfold PntsReader.readInto
  dsimp only
  rw [h.count, h.index, Nat.min_comm, hz]
  rfl

end

/-! ## Sequences of calls -/

theorem apply_self {l : PointLayout} (hl : Solid l) {p : Point} (hp : p.map Prod.fst = l.attributes.map Member.definition) :
    (defaultPlan l).apply p (zeroPoint l) = p := by
  have hnd : (p.map Prod.fst).Nodup := by
    rw [hp]
    have hn := hl.names
    rw [show l.attributes.map Member.name = (l.attributes.map Member.definition).map AttrDef.name by
      rw [List.map_map]; rfl] at hn
    exact List.Nodup.of_map _ hn
  have hz : (zeroPoint l).map Prod.fst = p.map Prod.fst := by
    rw [hp]
    unfold zeroPoint
    rw [List.map_map]
    rfl
  have hplan : ∀ kv ∈ p, defaultPlan l kv.1 = some ⟨kv.1, id⟩ := by
    intro kv hkv
    have : kv.1 ∈ l.attributes.map Member.definition := hp ▸ List.mem_map_of_mem hkv
    obtain ⟨m, hm, he⟩ := List.mem_map.1 this
    rw [← he, defaultPlan_named hl hm (d := m.definition) rfl]
    show (conversion m.datatype m.datatype).map _ = _
    unfold conversion
    rw [if_pos rfl]
    rfl
  have hlen : (zeroPoint l).length = p.length := by have := congrArg List.length hz; simpa using this
  unfold Plan.apply
  apply List.ext_getElem (by simpa using hlen)
  intro j h1 h2
  have hj : (zeroPoint l)[j]'(by omega) = (p[j].1, ((zeroPoint l)[j]'(by omega)).2) := by
    have : ((zeroPoint l).map Prod.fst)[j]? = (p.map Prod.fst)[j]? := by rw [hz]
    rw [List.getElem?_map, List.getElem?_map, List.getElem?_eq_getElem h2, List.getElem?_eq_getElem (by omega)] at this
    simp only [Option.map_some, Option.some.injEq] at this
    rw [← this]
  rw [List.getElem_map, hj]
  have hmem := List.getElem_mem h2
  have hget : p.get p[j].1 = some p[j].2 := by
    unfold Point.get
    exact lookup_of_mem hnd hmem
  simp only [hplan _ hmem, hget, id_eq]

theorem seek_opened {r : PntsReader} {ps : List Point} {center : Option (P3 F64)} {i : Nat} (h : Opened r ps center i)
    (hn : ps.length < 2 ^ 63) (p : SeekFrom) (h0 : 0 ≤ p.wanted ps.length i) (h1 : p.wanted ps.length i < 2 ^ 63) :
    ∃ r', SeekToPoint.seekPoint r p = .ok (min (p.wanted ps.length i).toNat ps.length, r') ∧ SameTile r r' ∧
      Opened r' ps center (min (p.wanted ps.length i).toNat ps.length) := by
  have hin := h.inside
  refine ⟨{ r with currentPointIndex := min (p.wanted ps.length i).toNat ps.length }, ?_, ⟨rfl, rfl, rfl, rfl, rfl⟩,
    rfl, by omega, h.count, h.center, h.solid, h.attributes, h.sizes, h.stored⟩
  show r.seekPoint p = _
  unfold PntsReader.seekPoint
  rw [h.count, h.index]
  cases p with
  | start k => rfl
  | fromEnd k =>
    simp only [SeekFrom.wanted] at h0 h1 ⊢
    simp only [toI64, addI64, toU64, if_pos hn, bind, Except.bind]
    rw [if_pos (show -2 ^ 63 ≤ (ps.length : Int) + k ∧ (ps.length : Int) + k < 2 ^ 63 by omega)]
    simp only [if_pos h0]
    rfl
  | current k =>
    simp only [SeekFrom.wanted] at h0 h1 ⊢
    simp only [toI64, addI64, toU64, if_pos (show i < 2 ^ 63 by omega), bind, Except.bind]
    rw [if_pos (show -2 ^ 63 ≤ (i : Int) + k ∧ (i : Int) + k < 2 ^ 63 by omega)]
    simp only [if_pos h0]
    rfl

theorem convertible_self {l : PointLayout} (hl : Solid l) : Convertible l l := by
  intro m hm m' hm' hn
  have h1 := (getByName_iff l hl.names m.name m').2 ⟨hm', hn⟩
  rw [(getByName_iff l hl.names m.name m).2 ⟨hm, rfl⟩] at h1
  rw [Option.some.inj h1]
  unfold conversion
  rw [if_pos rfl]
  rfl

section
variable {β : Type} [OwningBuffer β] [AsMemoryMut β] [MakeBufferFromLayout β] [MakesRecords β]

theorem read_opened {r : PntsReader} {ps : List Point} {center : Option (P3 F64)} {i : Nat} (h : Opened r ps center i)
    (hmv : Movable r.layout) {n : Nat} (hn : 0 < n) (hi : i < ps.length) :
    ∃ (b : β) (r' : PntsReader), readPoints β r n = .ok (b, r') ∧ SameTile r r' ∧
      Opened r' ps center (i + min n (ps.length - i)) ∧ RecordBuffer.Consistent b ∧
      ShowsPoints b r.layout (((ps.drop i).take n).map (placed r.mode center)) := by
  have hz : AllLen r.layout.size (List.replicate n (List.replicate r.layout.size (0 : Byte))) := AllLen.replicate (by simp) _
  obtain ⟨rs', r', a1, a2, a3, a4, a5⟩ := readInto_records (β := β) h h.solid (convertible_self h.solid) (fun _ _ => hmv) hz
    (count := n) (by omega) (by simp)
  have hlen : rs'.length = n := by
    have := congrArg List.length a5
    simpa [Plan.convert] using this
  generalize hk : min n (ps.length - i) = k at *
  have htake : resized rs' k (List.replicate r.layout.size (0 : Byte)) = rs'.take k := by
    unfold resized
    rw [Nat.sub_eq_zero_of_le (by omega)]
    simp
  have hall : AllLen r.layout.size (rs'.take k) := a4.take _
  refine ⟨HoldsRecords.ofRecords r.layout (rs'.take k), r', ?_, a2, a3, RecordBuffer.consistent h.solid hall, ?_⟩
  · unfold readPoints
    dsimp only
    show (r.readInto (OwningBuffer.resize (MakeBufferFromLayout.newFromLayout r.layout : β) n) n).bind _ = _
    rw [new_resized h.solid, a1]
    show Except.ok (OwningBuffer.resize (HoldsRecords.ofRecords r.layout rs' : β) k, r') = _
    rw [resize_records h.solid a4, htake]
  · have := HoldsRecords.shows (β := β) h.solid hall
    rw [List.map_take, a5, ← List.map_take] at this
    refine Eq.mp (congrArg (ShowsPoints _ r.layout) ?_) this
    congr 1
    apply List.ext_getElem?
    intro j
    rw [List.getElem?_take, List.getElem?_take]
    by_cases hj : j < k
    · rw [if_pos hj, if_pos (by omega)]
      simp only [Plan.convert, List.getElem?_mapIdx, List.getElem?_map, List.getElem?_drop]
      rw [List.getElem?_replicate_of_lt (by omega)]
      have hij : i + j < ps.length := by omega
      simp only [Option.map_some, Nat.sub_zero, List.getElem?_eq_getElem hij]
      rw [if_pos ⟨by omega, hj⟩, pointOf_zeros h.solid, apply_self h.solid (h.attributes _ (List.getElem_mem hij))]
    · rw [if_neg hj]
      by_cases hjn : j < n
      · rw [if_pos hjn, List.getElem?_drop, List.getElem?_eq_none (by omega)]
      · rw [if_neg hjn]

theorem session_opened : ∀ (calls : List ReaderCall) (r : PntsReader) (ps : List Point) (center : Option (P3 F64)) (i : Nat),
    Opened r ps center i → Movable r.layout → ps.length < 2 ^ 63 → seeksInRange ps.length i calls →
    readsSomething ps.length i calls →
    ∃ bs : List β, runCalls β r calls = .ok bs ∧ List.Forall₂ (fun b part => RecordBuffer.Consistent b ∧
      ShowsPoints b r.layout (part.map (placed r.mode center))) bs (partsRead ps i calls) := by
  intro calls
  induction calls with
  | nil => intro r ps center i _ _ _ _ _; exact ⟨[], rfl, .nil⟩
  | cons c calls ih =>
    intro r ps center i h hmv hn hs hr
    cases c with
    | read n =>
      obtain ⟨⟨hr1, hr2⟩, hr⟩ := hr
      obtain ⟨b, r', a1, ⟨_, _, e3, _, e5⟩, a3, a4, a5⟩ := read_opened (β := β) h hmv hr1 hr2
      obtain ⟨bs, g1, g2⟩ := ih r' ps center _ a3 (e3 ▸ hmv) hn hs hr
      refine ⟨b :: bs, ?_, ?_⟩
      · unfold runCalls
        rw [a1]
        show (runCalls β r' calls).bind _ = _
        rw [g1]
        rfl
      · rw [e3, e5] at g2
        exact .cons ⟨a4, a5⟩ g2
    | seek p =>
      obtain ⟨⟨h0, h1⟩, hs⟩ := hs
      obtain ⟨r', a1, ⟨_, _, e3, _, e5⟩, a3⟩ := seek_opened h hn p h0 h1
      obtain ⟨bs, g1, g2⟩ := ih r' ps center _ a3 (e3 ▸ hmv) hn hs hr
      refine ⟨bs, ?_, ?_⟩
      · unfold runCalls
        rw [a1]
        exact g1
      · rw [e3, e5] at g2
        exact g2

end

end Pasture.Tiles3d
