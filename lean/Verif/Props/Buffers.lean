import Verif.Lemmas.Buffers

/-!
# Properties of the point buffers: C08, C09, C10, C11, C12, C14, C20

`Solid l` (Spec/Points.lean) are the layouts with attributes of non-zero size that lie inside the
point without overlapping; `solid_layouts` shows that the layout API builds them. `Op` are the
mutating operations, `recordHistory`/`pointHistory` run them on plain lists, and
`ShowsRecords`/`ShowsPoints` (Spec/Observe.lean) say what every read returns.
-/

namespace Pasture.Props

open Spec BorrowedBuffer BorrowedMutBuffer OwningBuffer

/-- The layouts users build are `Solid`: any history of `add_attribute`, and any successful
    `from_members_and_alignment`, with at least one attribute and no zero-size attributes. -/
theorem solid_layouts (l : PointLayout) :
    (∀ calls : List (AttrDef × FieldAlignment), calls ≠ [] → (∀ c ∈ calls, 0 < c.1.size) →
      forLoop calls PointLayout.default (fun l c => l.addAttribute c.1 c.2) = .ok l → Solid l) ∧
    (∀ (ms : List Member) (a : Nat), ms ≠ [] → (∀ m ∈ ms, 0 < m.size) →
      PointLayout.fromMembersAndAlignment ms a = .ok l → Solid l) :=
  ⟨fun _ h1 h2 h3 => solid_of_history h1 h2 h3, fun _ _ h1 h2 h3 => solid_of_fromMembers h1 h2 h3⟩

/-- A layout with padding before `b` and at the end, used in the examples. -/
def exLayout : PointLayout :=
  ⟨[⟨⟨"a", .u8⟩, 0⟩, ⟨⟨"b", .u16⟩, 2⟩, ⟨⟨"c", .u8⟩, 4⟩], 6, 2⟩

theorem exLayout_solid : Solid exLayout := by
  apply (solid_layouts exLayout).1 [(⟨"a", .u8⟩, .default), (⟨"b", .u16⟩, .default), (⟨"c", .u8⟩, .default)]
  · simp
  · decide
  · decide

/-! ## C08 -/

/-- C08. Any history of operations on a fresh `VectorBuffer` gives what the same history gives on
    a plain list of records: it panics when the list machine panics, and otherwise every read of
    the buffer returns the bytes of those records. -/
theorem C08_vector_history (l : PointLayout) (hl : Solid l) (ops : List Op)
    (hops : ∀ op ∈ ops, op.wellFormed l) :
    (∀ e, recordHistory l ops [] = .error e →
      runOps (VectorBuffer.newFromLayout l) ops = .error e) ∧
    (∀ rs, recordHistory l ops [] = .ok rs →
      ∃ b, runOps (VectorBuffer.newFromLayout l) ops = .ok b ∧ ShowsRecords b l rs) := by
  obtain ⟨h1, h2⟩ := runOps_eq (β := VectorBuffer) hl AllLen.nil ops hops
  have h1 : runOps (VectorBuffer.newFromLayout l) ops = _ := h1
  refine ⟨fun e he => by rw [h1, he]; rfl, fun rs hrs => ?_⟩
  exact ⟨Interleaved.ofRecords l rs, by rw [h1, hrs]; rfl, interleaved_shows_records hl (h2 rs hrs)⟩

/-- C08, storage. The memory of the buffer is exactly its records. -/
theorem C08_vector_storage (l : PointLayout) (hl : Solid l) (ops : List Op)
    (hops : ∀ op ∈ ops, op.wellFormed l) (b : VectorBuffer)
    (h : runOps (VectorBuffer.newFromLayout l) ops = .ok b) :
    b.storage.length = b.length * l.size ∧ b.layout = l := by
  obtain ⟨h1, h2⟩ := runOps_eq (β := VectorBuffer) hl AllLen.nil ops hops
  have h1 : runOps (VectorBuffer.newFromLayout l) ops = _ := h1
  rw [h] at h1
  cases hr : recordHistory l ops [] with
  | error e => rw [hr] at h1; cases h1
  | ok rs =>
    rw [hr] at h1
    have e : b = Interleaved.ofRecords l rs := Except.ok.inj h1
    subst e
    exact ⟨Interleaved.ofRecords_inv (h2 rs hr), rfl⟩

/-- Every step matters: a history of all eight operations. -/
def exOps : List Op :=
  [.pushPoints [1, 0, 2, 3, 4, 0, 5, 0, 6, 7, 8, 0], .resize 3, .swap 0 1,
   .setAttribute ⟨"b", .u16⟩ 2 [9, 9], .setPoint 0 [1, 2, 3, 4, 5, 6],
   .setAttributeRange ⟨"c", .u8⟩ 1 3 [7, 8], .setPointRange 1 2 [0, 0, 1, 1, 1, 0]]

example : (∀ op ∈ exOps, op.wellFormed exLayout) ∧
    recordHistory exLayout exOps [] = .ok [[1, 2, 3, 4, 5, 6], [0, 0, 1, 1, 1, 0], [0, 0, 9, 9, 8, 0]] := by
  refine ⟨?_, by decide⟩
  simp [exOps, Op.wellFormed, exLayout, AttrDef.size, DataType.size]

example : recordHistory exLayout [.resize 2, .swap 0 2] [] = .error .panic := by decide

/-! ## C09 -/

/-- C09. Any history of operations on a fresh `HashMapBuffer` gives what the same history gives on
    a plain list of attribute tuples, and every column holds exactly `len` values. -/
theorem C09_hashmap_history (l : PointLayout) (hl : Solid l) (ops : List Op)
    (hops : ∀ op ∈ ops, op.wellFormed l) :
    (∀ e, pointHistory l ops [] = .error e →
      runOps (HashMapBuffer.newFromLayout l) ops = .error e) ∧
    (∀ ps, pointHistory l ops [] = .ok ps →
      ∃ b, runOps (HashMapBuffer.newFromLayout l) ops = .ok b ∧ ShowsPoints b l ps ∧
        b.columns.map Prod.fst = l.attributes.map Member.definition ∧
        ∀ kv ∈ b.columns, kv.2.length = ps.length * kv.1.size) := by
  obtain ⟨h1, h2⟩ := runOps_eq (β := HashMapBuffer) hl AllLen.nil ops hops
  have h1 : runOps (HashMapBuffer.newFromLayout l) ops = _ := h1
  have h3 := history_map hl ops [] AllLen.nil hops
  rw [List.map_nil] at h3
  cases hr : recordHistory l ops [] with
  | error e =>
    rw [hr] at h3 h1
    refine ⟨fun e' he => ?_, fun ps hps => ?_⟩
    · rw [h3] at he; cases he; rw [h1]; rfl
    · rw [h3] at hps; cases hps
  | ok rs =>
    rw [hr] at h3 h1
    refine ⟨fun e' he => ?_, fun ps hps => ?_⟩
    · rw [h3] at he; cases he
    · rw [h3] at hps
      have hps : rs.map (pointOf l) = ps := Except.ok.inj hps
      subst hps
      refine ⟨HashMapBuffer.ofRecords l rs, by rw [h1]; rfl, HashMapBuffer.shows_points hl (h2 rs hr), ?_⟩
      have := HashMapBuffer.ofRecords_inv hl (h2 rs hr)
      rw [List.length_map]
      exact this

example : pointHistory exLayout exOps [] = .ok
    [[(⟨"a", .u8⟩, [1]), (⟨"b", .u16⟩, [3, 4]), (⟨"c", .u8⟩, [5])],
     [(⟨"a", .u8⟩, [0]), (⟨"b", .u16⟩, [1, 1]), (⟨"c", .u8⟩, [1])],
     [(⟨"a", .u8⟩, [0]), (⟨"b", .u16⟩, [9, 9]), (⟨"c", .u8⟩, [8])]] := by decide

/-! ## C10 -/

/-- C10. The same history on a `VectorBuffer` and on a `HashMapBuffer` of the same layout panics in
    both or in neither; if not, lengths and all values of all attributes (single and ranges) agree,
    and points read whole describe the same attribute values. -/
theorem C10_interleaved_and_columnar_agree (l : PointLayout) (hl : Solid l) (ops : List Op)
    (hops : ∀ op ∈ ops, op.wellFormed l) :
    (∀ e, runOps (VectorBuffer.newFromLayout l) ops = .error e ↔
      runOps (HashMapBuffer.newFromLayout l) ops = .error e) ∧
    (∀ v h, runOps (VectorBuffer.newFromLayout l) ops = .ok v →
      runOps (HashMapBuffer.newFromLayout l) ops = .ok h →
      len v = len h ∧ layout v = layout h ∧
      (∀ d i data, data.length = d.size → getAttribute v d i data = getAttribute h d i data) ∧
      (∀ d s e data, s < e → data.length = (e - s) * d.size →
        getAttributeRange v d ⟨s, e⟩ data = getAttributeRange h d ⟨s, e⟩ data) ∧
      (∀ i data, data.length = l.size →
        (getPoint v i data).map (pointOf l) = (getPoint h i data).map (pointOf l)) ∧
      (∀ s e data, s < e → data.length = (e - s) * l.size →
        (getPointRange v ⟨s, e⟩ data).map (fun r => (recordsOf l.size (e - s) r).map (pointOf l)) =
        (getPointRange h ⟨s, e⟩ data).map (fun r => (recordsOf l.size (e - s) r).map (pointOf l)))) := by
  obtain ⟨h1, h2⟩ := runOps_eq (β := VectorBuffer) hl AllLen.nil ops hops
  have h1 : runOps (VectorBuffer.newFromLayout l) ops = _ := h1
  obtain ⟨g1, g2⟩ := runOps_eq (β := HashMapBuffer) hl AllLen.nil ops hops
  have g1 : runOps (HashMapBuffer.newFromLayout l) ops = _ := g1
  rw [h1, g1]
  cases hr : recordHistory l ops [] with
  | error e =>
    refine ⟨fun e' => ⟨fun he => ?_, fun he => ?_⟩, fun v h hv => by cases hv⟩ <;> (cases he; rfl)
  | ok rs =>
    refine ⟨fun e' => ⟨fun he => (by cases he), fun he => (by cases he)⟩, fun v h hv hh => ?_⟩
    have ev : Interleaved.ofRecords l rs = v := Except.ok.inj hv
    have eh : HashMapBuffer.ofRecords l rs = h := Except.ok.inj hh
    subst ev
    subst eh
    have sv := interleaved_shows_points hl (h2 rs hr)
    have sh := HashMapBuffer.shows_points hl (h2 rs hr)
    refine ⟨rfl, rfl, ?_, ?_, ?_, ?_⟩
    · intro d i data hd
      rw [sv.getAttribute_eq d i data hd, sh.getAttribute_eq d i data hd]
    · intro d s e data hse hd
      rw [sv.getAttributeRange_eq d s e data hse hd, sh.getAttributeRange_eq d s e data hse hd]
    · intro i data hd
      cases hp : (rs.map (pointOf l))[i]? with
      | none =>
        have : (rs.map (pointOf l)).length ≤ i := by simpa using hp
        rw [sv.getPoint_panic i data this hd, sh.getPoint_panic i data this hd]
      | some p =>
        obtain ⟨r1, a1, _, c1⟩ := sv.getPoint_ok i p data hp hd
        obtain ⟨r2, a2, _, c2⟩ := sh.getPoint_ok i p data hp hd
        rw [a1, a2]
        simp only [Except.map, c1, c2]
    · intro s e data hse hd
      by_cases he : e ≤ (rs.map (pointOf l)).length
      · obtain ⟨r1, a1, _, c1⟩ := sv.getPointRange_ok s e data (by omega) he hd
        obtain ⟨r2, a2, _, c2⟩ := sh.getPointRange_ok s e data (by omega) he hd
        rw [a1, a2]
        simp only [Except.map, c1, c2]
      · rw [sv.getPointRange_panic s e data hse (by omega) hd, sh.getPointRange_panic s e data hse (by omega) hd]

/-! ## C11 and C12: frame properties, in any consistent state -/

/-- A buffer whose storage agrees with its length (every history keeps this: `C08_vector_storage`,
    `C09_hashmap_history`). -/
def VectorConsistent (b : VectorBuffer) : Prop := b.storage.length = b.length * b.layout.size

instance (b : VectorBuffer) : Decidable (VectorConsistent b) := by unfold VectorConsistent; infer_instance

/-- The same for columnar storage. -/
def HashMapConsistent (b : HashMapBuffer) : Prop :=
  b.columns.map Prod.fst = b.layout.attributes.map Member.definition ∧
    ∀ kv ∈ b.columns, kv.2.length = b.length * kv.1.size

instance (b : HashMapBuffer) : Decidable (HashMapConsistent b) := by unfold HashMapConsistent; infer_instance

/-- Writing attribute `d` of point `i` changes that value and no other. -/
def SetAttributeFrame {β : Type} [OwningBuffer β] (b : β) : Prop :=
  ∀ d i v, d ∈ (layout b).attributes.map Member.definition → i < len b → v.length = d.size →
    ∃ b', setAttribute b d i v = .ok b' ∧ len b' = len b ∧ layout b' = layout b ∧
      (∀ data, data.length = d.size → getAttribute b' d i data = .ok v) ∧
      (∀ d' j data, data.length = d'.size → (d' ≠ d ∨ j ≠ i) →
        getAttribute b' d' j data = getAttribute b d' j data)

theorem setAttributeFrame {β : Type} [OwningBuffer β] [HoldsRecords β] {l : PointLayout} (hl : Solid l)
    {rs : List Bytes} (h : AllLen l.size rs) : SetAttributeFrame (HoldsRecords.ofRecords l rs : β) := by
  have sh := HoldsRecords.shows (β := β) hl h
  intro d i v hd hi hv
  rw [sh.layout_eq] at hd
  rw [sh.len_eq, List.length_map] at hi
  have hop : (Op.setAttribute d i v).wellFormed l := hv
  have ha : (Op.setAttribute d i v).allowed l rs.length := ⟨hd, hi⟩
  have hst := HoldsRecords.step_eq (β := β) hl h _ hop
  unfold Op.stepRecords at hst
  rw [if_pos ha] at hst
  have h' := onRecords_allLen hl h hop
  have sh' := HoldsRecords.shows (β := β) hl h'
  have hpts := onRecords_map hl h hop ha
  rw [hpts] at sh'
  have hty : ∀ p ∈ rs.map (pointOf l), Typed l p := by
    intro p hp
    obtain ⟨r, hr, rfl⟩ := List.mem_map.1 hp
    exact pointOf_typed hl (h r hr)
  have hval := fun d' j => value?_set hty hd (i := i) (by simpa using hi) v d' j
  refine ⟨_, hst, ?_, ?_, ?_, ?_⟩
  · rw [sh'.len_eq, sh.len_eq]; simp [Op.onPoints]
  · rw [sh'.layout_eq, sh.layout_eq]
  · intro data hdl
    rw [sh'.getAttribute_eq d i data hdl]
    show answer (value? ((rs.map (pointOf l)).modify i fun p => p.set d v) d i) = _
    rw [hval, if_pos ⟨rfl, rfl⟩]; rfl
  · intro d' j data hdl hne
    rw [sh'.getAttribute_eq d' j data hdl, sh.getAttribute_eq d' j data hdl]
    show answer (value? ((rs.map (pointOf l)).modify i fun p => p.set d v) d' j) = _
    rw [hval, if_neg (by rintro ⟨h1, h2⟩; rcases hne with h | h; exact h h1; exact h h2)]

/-- C11 for interleaved buffers (`VectorBuffer`; `ExternalMemoryBuffer` has the same state). -/
theorem C11_set_attribute_frame_interleaved (b : VectorBuffer) (hl : Solid b.layout)
    (hb : VectorConsistent b) : SetAttributeFrame b := by
  have := setAttributeFrame (β := VectorBuffer) hl (Interleaved.records_allLen hb)
  have e : (HoldsRecords.ofRecords b.layout b.records : VectorBuffer) = b := Interleaved.ofRecords_records hb
  rw [e] at this
  exact this

/-- C11 for columnar buffers. -/
theorem C11_set_attribute_frame_columnar (b : HashMapBuffer) (hl : Solid b.layout)
    (hb : HashMapConsistent b) : SetAttributeFrame b := by
  obtain ⟨rs, h1, _, h3⟩ := HashMapBuffer.exists_records hl hb
  have := setAttributeFrame (β := HashMapBuffer) hl h1
  have e : (HoldsRecords.ofRecords b.layout rs : HashMapBuffer) = b := h3.symm
  rw [e] at this
  exact this

example : VectorConsistent ⟨List.replicate 18 7, exLayout, 3⟩ ∧
    HashMapConsistent ⟨[(⟨"a", .u8⟩, [1, 2, 3]), (⟨"b", .u16⟩, [1, 2, 3, 4, 5, 6]), (⟨"c", .u8⟩, [1, 2, 3])],
      exLayout, 3⟩ := by
  exact ⟨by decide, by decide⟩

/-- C12 for interleaved buffers: `set_point` then `get_point` gives back the bytes, padding
    included, and leaves every other point as it was. -/
theorem C12_set_get_point_interleaved (b : VectorBuffer) (hl : Solid b.layout)
    (hb : VectorConsistent b) (i : Nat) (hi : i < b.length) (bytes : Bytes)
    (hbytes : bytes.length = b.layout.size) :
    ∃ b', setPoint b i bytes = .ok b' ∧ len b' = len b ∧ layout b' = layout b ∧
      (∀ data, data.length = b.layout.size → getPoint b' i data = .ok bytes) ∧
      (∀ j data, j ≠ i → data.length = b.layout.size → getPoint b' j data = getPoint b j data) := by
  have hr := Interleaved.records_allLen hb
  have e := Interleaved.ofRecords_records hb
  have hlen : b.records.length = b.length := by simp [Interleaved.records, recordsOf_length]
  have s0 := interleaved_shows_records hl hr
  have s1 := interleaved_shows_records hl (hr.set hbytes i)
  have hw := Interleaved.write_block hr (i := i) (by omega) hbytes
  rw [e] at s0 hw
  refine ⟨_, hw, ?_, rfl, ?_, ?_⟩
  · simp [BorrowedBuffer.len, hlen]
  · intro data hd
    rw [s1.getPoint_eq i data hd, List.getElem?_set_self (by omega)]; rfl
  · intro j data hj hd
    rw [s1.getPoint_eq j data hd, s0.getPoint_eq j data hd, List.getElem?_set_ne (Ne.symm hj)]

/-- C12 for columnar buffers: every attribute of the bytes comes back, other points are as before. -/
theorem C12_set_get_point_columnar (b : HashMapBuffer) (hl : Solid b.layout)
    (hb : HashMapConsistent b) (i : Nat) (hi : i < b.length) (bytes : Bytes)
    (hbytes : bytes.length = b.layout.size) :
    ∃ b', setPoint b i bytes = .ok b' ∧ len b' = len b ∧ layout b' = layout b ∧
      (∀ data, data.length = b.layout.size → ∃ r, getPoint b' i data = .ok r ∧
        ∀ m ∈ b.layout.attributes, window r m.offset m.size = window bytes m.offset m.size) ∧
      (∀ d j data, j ≠ i → data.length = d.size →
        getAttribute b' d j data = getAttribute b d j data) := by
  obtain ⟨rs, hr, hlen, e⟩ := HashMapBuffer.exists_records hl hb
  have s0 := HashMapBuffer.shows_points hl hr
  have s1 := HashMapBuffer.shows_points hl (hr.set hbytes i)
  have hw := HashMapBuffer.setPoint_ok hl hr (i := i) (by omega) hbytes
  rw [← e] at s0 hw
  refine ⟨_, hw, ?_, rfl, ?_, ?_⟩
  · simp [BorrowedBuffer.len, hlen]
  · intro data hd
    obtain ⟨r, h1, _, h2⟩ := s1.getPoint_ok i (pointOf b.layout bytes) data
      (by rw [List.getElem?_map, List.getElem?_set_self (by omega)]; rfl) hd
    refine ⟨r, h1, fun m hm => ?_⟩
    unfold pointOf at h2
    exact (Prod.mk.inj ((List.map_inj_left.1 h2) m hm)).2
  · intro d j data hj hd
    rw [s1.getAttribute_eq d j data hd, s0.getAttribute_eq d j data hd]
    unfold value?
    rw [List.map_set, List.getElem?_set_ne (Ne.symm hj)]

/-! ## C14 -/

/-- Every read and write outside the buffer or of an unknown attribute panics (and so changes
    nothing). Data lengths are those of the request. -/
structure PanicsOutside {β : Type} [OwningBuffer β] (b : β) : Prop where
  getPoint : ∀ i data, len b ≤ i → data.length = (layout b).size → BorrowedBuffer.getPoint b i data = .error .panic
  getPointRange : ∀ s e data, s < e → len b < e → data.length = (e - s) * (layout b).size →
    BorrowedBuffer.getPointRange b ⟨s, e⟩ data = .error .panic
  getAttribute : ∀ d i data, len b ≤ i ∨ d ∉ (layout b).attributes.map Member.definition →
    data.length = d.size → BorrowedBuffer.getAttribute b d i data = .error .panic
  getAttributeRange : ∀ d s e data, s < e → len b < e ∨ d ∉ (layout b).attributes.map Member.definition →
    data.length = (e - s) * d.size → getAttributeRange b d ⟨s, e⟩ data = .error .panic
  setPoint : ∀ i data, len b ≤ i → data.length = (layout b).size →
    BorrowedMutBuffer.setPoint b i data = .error .panic
  setPointRange : ∀ s e data, s < e → len b < e → data.length = (e - s) * (layout b).size →
    BorrowedMutBuffer.setPointRange b ⟨s, e⟩ data = .error .panic
  setAttribute : ∀ d i data, len b ≤ i ∨ d ∉ (layout b).attributes.map Member.definition →
    data.length = d.size → BorrowedMutBuffer.setAttribute b d i data = .error .panic
  setAttributeRange : ∀ d s e data, s < e → len b < e ∨ d ∉ (layout b).attributes.map Member.definition →
    data.length = (e - s) * d.size → BorrowedMutBuffer.setAttributeRange b d ⟨s, e⟩ data = .error .panic
  swap : ∀ i j, len b ≤ i ∨ len b ≤ j → BorrowedMutBuffer.swap b i j = .error .panic

theorem values?_none {l : PointLayout} {rs : List Bytes} {d : AttrDef} {s e : Nat} (hse : s < e)
    (h : rs.length < e ∨ d ∉ l.attributes.map Member.definition) :
    values? (rs.map (pointOf l)) d s e = none := by
  unfold values? range?
  split
  · next he =>
    rw [List.length_map] at he
    have hd := h.resolve_left (by omega)
    simp only [bind, Option.bind]
    have hlt : s < rs.length := by omega
    rw [mapM_none (f := fun p : Point => p.get d) (x := pointOf l rs[s]) (by
      rw [List.mem_iff_getElem]
      exact ⟨0, by simp; omega, by simp⟩) (by rw [pointOf_get, find_def_none hd]; rfl)]
  · rfl

theorem panicsOutside {β : Type} [OwningBuffer β] [HoldsRecords β] {l : PointLayout} (hl : Solid l)
    {rs : List Bytes} (h : AllLen l.size rs) : PanicsOutside (HoldsRecords.ofRecords l rs : β) := by
  have sh := HoldsRecords.shows (β := β) hl h
  have hlen : len (HoldsRecords.ofRecords l rs : β) = rs.length := by rw [sh.len_eq, List.length_map]
  have hlay := sh.layout_eq
  have hstep : ∀ op : Op, op.wellFormed l → ¬ op.allowed l rs.length →
      runOp (HoldsRecords.ofRecords l rs : β) op = .error .panic := by
    intro op h1 h2
    have := HoldsRecords.step_eq (β := β) hl h op h1
    unfold Op.stepRecords at this
    rw [if_neg h2] at this
    exact this
  constructor
  · intro i data hi hd
    rw [hlen] at hi; rw [hlay] at hd
    exact sh.getPoint_panic i data (by simpa using hi) hd
  · intro s e data hse he hd
    rw [hlen] at he; rw [hlay] at hd
    exact sh.getPointRange_panic s e data hse (by simpa using he) hd
  · intro d i data hi hd
    rw [hlen, hlay] at hi
    rw [sh.getAttribute_eq d i data hd, value?_pointOf]
    rcases hi with hi | hi
    · rw [List.getElem?_eq_none hi]; rfl
    · rw [find_def_none hi]; cases rs[i]? <;> rfl
  · intro d s e data hse hi hd
    rw [hlen, hlay] at hi
    rw [sh.getAttributeRange_eq d s e data hse hd, values?_none hse hi]; rfl
  · intro i data hi hd
    rw [hlen] at hi; rw [hlay] at hd
    exact hstep (.setPoint i data) hd (by show ¬ i < rs.length; omega)
  · intro s e data hse he hd
    rw [hlen] at he; rw [hlay] at hd
    exact hstep (.setPointRange s e data) ⟨hse, hd⟩ (by show ¬ e ≤ rs.length; omega)
  · intro d i data hi hd
    rw [hlen, hlay] at hi
    exact hstep (.setAttribute d i data) hd (by
      rintro ⟨h1, h2⟩; rcases hi with hi | hi
      · omega
      · exact hi h1)
  · intro d s e data hse hi hd
    rw [hlen, hlay] at hi
    exact hstep (.setAttributeRange d s e data) ⟨hse, hd⟩ (by
      rintro ⟨h1, h2⟩; rcases hi with hi | hi
      · omega
      · exact hi h1)
  · intro i j hij
    rw [hlen] at hij
    exact hstep (.swap i j) trivial (by rintro ⟨h1, h2⟩; omega)

/-- C14 for interleaved buffers. -/
theorem C14_out_of_range_panics_interleaved (b : VectorBuffer) (hl : Solid b.layout)
    (hb : VectorConsistent b) : PanicsOutside b := by
  have := panicsOutside (β := VectorBuffer) hl (Interleaved.records_allLen hb)
  have e : (HoldsRecords.ofRecords b.layout b.records : VectorBuffer) = b := Interleaved.ofRecords_records hb
  rw [e] at this
  exact this

/-- C14 for columnar buffers. -/
theorem C14_out_of_range_panics_columnar (b : HashMapBuffer) (hl : Solid b.layout)
    (hb : HashMapConsistent b) : PanicsOutside b := by
  obtain ⟨rs, h1, _, h3⟩ := HashMapBuffer.exists_records hl hb
  have := panicsOutside (β := HashMapBuffer) hl h1
  have e : (HoldsRecords.ofRecords b.layout rs : HashMapBuffer) = b := h3.symm
  rw [e] at this
  exact this

/-- C14, wrong data lengths, interleaved: no read or write succeeds with them. -/
theorem C14_wrong_length_panics_interleaved (b : VectorBuffer) (i : Nat) (d : AttrDef) (data : Bytes) :
    (∀ r, getPoint b i data = .ok r → data.length = b.layout.size) ∧
    (∀ r, getAttribute b d i data = .ok r → data.length = d.size) ∧
    (∀ b', setPoint b i data = .ok b' → data.length = b.layout.size) ∧
    (∀ b', setAttribute b d i data = .ok b' → data.length = d.size) := by
  have hget : ∀ (a n : Nat) (r : Bytes), (do
      let p ← sliceGet b.storage a (a + n)
      copyFromSlice data p) = .ok r → data.length = n := by
    intro a n r h
    unfold sliceGet at h
    split at h
    · next h1 =>
      simp only [bind, Except.bind, copyFromSlice] at h
      split at h
      · next h2 => rw [← h2]; simp; omega
      · cases h
    · cases h
  have hput : ∀ (a n : Nat) (b' : VectorBuffer), b.write ⟨a, a + n⟩ data = .ok b' → data.length = n := by
    intro a n b' h
    unfold Interleaved.write slicePut at h
    simp only at h
    split at h
    · omega
    · cases h
  have hfind : ∀ m, b.layout.getAttribute d = some m → m.size = d.size := by
    intro m hm
    rw [getAttribute_eq] at hm
    rw [← (find_def_some hm).2]; rfl
  refine ⟨fun r h => ?_, fun r h => ?_, fun b' h => ?_, fun b' h => ?_⟩
  · refine hget (i * b.layout.size) _ r ?_
    rw [← Nat.succ_mul]; exact h
  · have h : (do
        let m ← expectSome (b.layout.getAttribute d)
        b.getAttributeUnchecked m i data) = .ok r := h
    cases hm : b.layout.getAttribute d with
    | none => rw [hm] at h; cases h
    | some m => rw [hm] at h; rw [← hfind m hm]; exact hget _ _ r h
  · refine hput (i * b.layout.size) _ b' ?_
    rw [← Nat.succ_mul]; exact h
  · have h : (do
        let m ← expectSome (b.layout.getAttribute d)
        b.write (b.byteRangeOfAttribute i m) data) = .ok b' := h
    cases hm : b.layout.getAttribute d with
    | none => rw [hm] at h; cases h
    | some m => rw [hm] at h; rw [← hfind m hm]; exact hput _ _ b' h

/-- C14 does not hold for points of size zero: reading any index of an empty `VectorBuffer` of
    such points succeeds. -/
theorem C14_zero_size_points_violated :
    len (VectorBuffer.newFromLayout PointLayout.default) = 0 ∧
    ∀ i, getPoint (VectorBuffer.newFromLayout PointLayout.default) i [] = .ok [] := by
  refine ⟨rfl, fun i => ?_⟩
  show Interleaved.getPoint _ i [] = _
  simp [Interleaved.getPoint, Interleaved.getPointRef, Interleaved.read, Interleaved.byteRangeOfPoint,
    sliceGet, copyFromSlice, VectorBuffer.newFromLayout, PointLayout.default, bind, Except.bind]

/-- C14, wrong data lengths, columnar: a buffer that is too long is accepted by `get_point` of a
    `HashMapBuffer` (the interleaved one panics). -/
theorem C14_columnar_accepts_long_slices :
    ∃ (b : HashMapBuffer) (data : Bytes), Solid b.layout ∧ HashMapConsistent b ∧
      b.layout.size < data.length ∧ getPoint b 0 data = .ok [7, 9, 9] :=
  ⟨⟨[(⟨"a", .u8⟩, [7])], ⟨[⟨⟨"a", .u8⟩, 0⟩], 1, 1⟩, 1⟩, [9, 9, 9],
    by apply (solid_layouts _).1 [(⟨"a", .u8⟩, .default)] <;> decide, by decide, by decide, by decide⟩

/-! ## C20: external memory -/

/-- C20. `ExternalMemoryBuffer::new` accepts a memory iff its length is a multiple of the point
    size; the buffer then covers the whole memory. -/
theorem C20_external_memory_accepts_iff (mem : Bytes) (l : PointLayout) :
    ((∃ b, ExternalMemoryBuffer.new mem l = .ok b) ↔ l.size ∣ mem.length) ∧
    (∀ b, ExternalMemoryBuffer.new mem l = .ok b →
      b.storage = mem ∧ layout b = l ∧ len b * l.size = mem.length) ∧
    (∀ e, ExternalMemoryBuffer.new mem l = .error e → e = .panic) := by
  unfold ExternalMemoryBuffer.new
  by_cases h0 : l.size = 0
  · rw [if_pos h0, h0]
    by_cases hm : mem.length = 0
    · simp only [hm]
      refine ⟨⟨fun _ => Nat.dvd_refl _, fun _ => ⟨_, rfl⟩⟩, fun b hb => ?_, fun e he => by cases he⟩
      cases hb
      exact ⟨rfl, rfl, by simp⟩
    · rw [assertThat_false (decide_eq_false hm)]
      refine ⟨⟨fun ⟨b, hb⟩ => (by cases hb), fun hd => absurd (Nat.eq_zero_of_zero_dvd hd) hm⟩,
        fun b hb => (by cases hb), fun e he => (by cases he; rfl)⟩
  · rw [if_neg h0]
    by_cases hm : mem.length % l.size = 0
    · simp only [hm]
      refine ⟨⟨fun _ => Nat.dvd_of_mod_eq_zero hm, fun _ => ⟨_, rfl⟩⟩, fun b hb => ?_, fun e he => by cases he⟩
      cases hb
      exact ⟨rfl, rfl, Nat.div_mul_cancel (Nat.dvd_of_mod_eq_zero hm)⟩
    · rw [assertThat_false (decide_eq_false hm)]
      refine ⟨⟨fun ⟨b, hb⟩ => (by cases hb), fun hd => absurd (Nat.mod_eq_zero_of_dvd hd) hm⟩,
        fun b hb => (by cases hb), fun e he => (by cases he; rfl)⟩

/-- C20. Reads of an external memory buffer return the bytes of the memory, and every write changes
    exactly the bytes it addresses. -/
theorem C20_external_memory_reads_and_writes (mem : Bytes) (l : PointLayout) (hl : Solid l)
    (b : ExternalMemoryBuffer) (h : ExternalMemoryBuffer.new mem l = .ok b) :
    ShowsRecords b l (recordsOf l.size (mem.length / l.size) mem) ∧
    (∀ i bytes b', i < len b → bytes.length = l.size → setPoint b i bytes = .ok b' →
      b'.storage = overwrite mem (i * l.size) bytes) ∧
    (∀ m i bytes b', m ∈ l.attributes → i < len b → bytes.length = m.size →
      setAttribute b m.definition i bytes = .ok b' →
      b'.storage = overwrite mem (i * l.size + m.offset) bytes) := by
  obtain ⟨h1, h2, h3⟩ := (C20_external_memory_accepts_iff mem l).2.1 b h
  obtain ⟨s, l', n⟩ := b
  have h1 : s = mem := h1
  have h2 : l' = l := h2
  have h3 : n * l.size = mem.length := h3
  subst h1
  subst h2
  have hn : s.length / l'.size = n := by rw [← h3, Nat.mul_div_cancel _ hl.size_pos]
  have hlen : s.length = n * l'.size := h3.symm
  refine ⟨?_, ?_, ?_⟩
  · rw [hn]
    have := interleaved_shows_records hl (recordsOf_allLen hlen)
    have e : Interleaved.ofRecords l' (recordsOf l'.size n s) = ⟨s, l', n⟩ :=
      Interleaved.ofRecords_records (b := ⟨s, l', n⟩) hlen
    rw [e] at this
    exact this
  · intro i bytes b' hi hb hset
    have hset : Interleaved.write ⟨s, l', n⟩ ⟨i * l'.size, (i + 1) * l'.size⟩ bytes = .ok b' := hset
    have := Interleaved.block_end_le (sz := l'.size) (show i < n from hi)
    unfold Interleaved.write at hset
    simp only [Nat.succ_mul] at hset
    rw [slicePut_ok (by omega) (by omega)] at hset
    cases hset
    rfl
  · intro m i bytes b' hm hi hb hset
    have hset : Interleaved.setAttribute ⟨s, l', n⟩ m.definition i bytes = .ok b' := hset
    have := Interleaved.block_end_le (sz := l'.size) (show i < n from hi)
    have hin := hl.inside m hm
    have e : l'.getAttribute m.definition = some m := by rw [getAttribute_eq]; exact find_def_mem hl hm
    unfold Interleaved.setAttribute at hset
    simp only [e, expectSome, bind, Except.bind, Interleaved.write, Interleaved.byteRangeOfAttribute] at hset
    rw [slicePut_ok (by omega) (by omega)] at hset
    cases hset
    rfl

example : ExternalMemoryBuffer.new (List.replicate 12 5) exLayout = .ok ⟨List.replicate 12 5, exLayout, 2⟩ ∧
    ExternalMemoryBuffer.new (List.replicate 13 5) exLayout = .error .panic := by decide

end Pasture.Props
