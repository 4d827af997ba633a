import Verif.Lemmas.Orderly
import Verif.Props.Collect
import Verif.Props.Slices

/-!
# C08 to C13 for attributes and points that may take no memory

The theorems in Props/Buffers.lean and Props/Collect.lean are about `Solid` layouts. These are about all layouts
`add_attribute` builds: `Orderly` allows layouts without attributes and attributes of size zero. Reads are those of
`ReadsPoints`: inside the buffer.
-/

namespace Pasture.Props

open Spec BorrowedBuffer BorrowedMutBuffer OwningBuffer

/-- Every layout built with `add_attribute` is `Orderly`, and every layout of attributes with non-zero sizes that
    `from_members_and_alignment` accepts. -/
theorem orderly_layouts (l : PointLayout) :
    (∀ calls : List (AttrDef × FieldAlignment),
      forLoop calls PointLayout.default (fun l c => l.addAttribute c.1 c.2) = .ok l → Orderly l) ∧
    (∀ (ms : List Member) (a : Nat), (∀ m ∈ ms, 0 < m.size) →
      PointLayout.fromMembersAndAlignment ms a = .ok l → Orderly l) := by
  refine ⟨fun calls h => ?_, fun ms a hpos h => ?_⟩
  · obtain ⟨_, h2, h3, h4⟩ := C02_add_attribute_history calls l h
    exact ⟨h2, h4, h3.imp fun h => .inl h⟩
  · obtain ⟨h1, _, _, h4, h5, _⟩ := C03_from_members_result ms a hpos l h
    have h0 := ((C03_from_members_accepts_iff ms a hpos).1 ⟨l, h⟩).1
    rw [← h1] at h0 hpos h4 h5
    refine ⟨h0, h5, List.Pairwise.imp_of_mem ?_ h4⟩
    intro x y hx hy hxy
    exact apart_of_not_overlap (hpos x hx) (hpos y hy) hxy

/-- An attribute of size zero between others, as `add_attribute` places it. -/
def gapLayout : PointLayout := ⟨[⟨⟨"a", .u16⟩, 0⟩, ⟨⟨"mark", .byteArray 0⟩, 2⟩, ⟨⟨"c", .u8⟩, 2⟩], 4, 2⟩

theorem gapLayout_orderly : Orderly gapLayout :=
  (orderly_layouts gapLayout).1
    [(⟨"a", .u16⟩, .default), (⟨"mark", .byteArray 0⟩, .default), (⟨"c", .u8⟩, .default)] (by decide)

theorem default_orderly : Orderly PointLayout.default := (orderly_layouts _).1 [] rfl

/-! ## C08 -/

/-- C08, whatever takes no memory: a history that is allowed on a list of records succeeds on a `VectorBuffer`, and
    what it then reads are those records. -/
theorem C08_any_layout (l : PointLayout) (hl : Orderly l) (ops : List Op) (hops : ∀ op ∈ ops, op.wellFormed l)
    (rs : List Bytes) (h : recordHistory l ops [] = .ok rs) :
    ∃ b, runOps (VectorBuffer.newFromLayout l) ops = .ok b ∧ ReadsRecords b l rs ∧ VectorConsistent b := by
  obtain ⟨h1, h2⟩ := runOps_orderly (β := VectorBuffer) hl ops AllLen.nil hops (fun _ _ => trivial) h
  exact ⟨Interleaved.ofRecords l rs, h1, interleaved_reads hl h2, Interleaved.ofRecords_inv h2⟩

/-! ## C09 -/

/-- C09, whatever takes no memory: if a history is allowed on a list of points and does not panic on a `HashMapBuffer`,
    then what it reads are those points, and every column holds exactly `len` values. It does not panic, unless points
    that take no memory are pushed. -/
theorem C09_any_layout (l : PointLayout) (hl : Orderly l) (ops : List Op) (hops : ∀ op ∈ ops, op.wellFormed l)
    (ps : List Point) (h : pointHistory l ops [] = .ok ps) :
    (∀ b, runOps (HashMapBuffer.newFromLayout l) ops = .ok b → ReadsPoints b l ps ∧ HashMapConsistent b) ∧
    ((l.size = 0 → ∀ data, Op.pushPoints data ∉ ops) → ∃ b, runOps (HashMapBuffer.newFromLayout l) ops = .ok b) := by
  have h3 := history_map hl ops [] AllLen.nil hops
  rw [List.map_nil, h] at h3
  cases hr : recordHistory l ops [] with
  | error e => rw [hr] at h3; cases h3
  | ok rs =>
  rw [hr] at h3
  have h3 : ps = rs.map (pointOf l) := Except.ok.inj h3
  subst h3
  have key : (∀ op ∈ ops, ∀ data, op = .pushPoints data → 0 < l.size) →
      runOps (HashMapBuffer.newFromLayout l) ops = .ok (HashMapBuffer.ofRecords l rs) ∧ AllLen l.size rs :=
    fun hc => runOps_orderly (β := HashMapBuffer) hl ops AllLen.nil hops hc hr
  refine ⟨fun b hb => ?_, fun hc => ?_⟩
  · by_cases hc : ∀ op ∈ ops, ∀ data, op = .pushPoints data → 0 < l.size
    · obtain ⟨h1, h2⟩ := key hc
      rw [h1] at hb
      cases hb
      exact ⟨HashMapBuffer.reads hl h2, HashMapBuffer.ofRecords_inv hl h2⟩
    · exfalso
      obtain ⟨op, hop, data, rfl, hz⟩ : ∃ op ∈ ops, ∃ data, op = Op.pushPoints data ∧ ¬ 0 < l.size := by
        simpa using hc
      have hz : l.size = 0 := by omega
      -- the layout never changes, so the push panics
      have hkeep : ∀ (b : HashMapBuffer) (op : Op) b', b.layout.size = 0 → runOp b op = .ok b' → b'.layout.size = 0 := by
        intro b op b' hb0 hstep
        cases op with
        | setPoint i r =>
          have hstep : b.setPoint i r = .ok b' := hstep
          unfold HashMapBuffer.setPoint at hstep
          simp only [bind, Except.bind] at hstep
          split at hstep
          · cases hstep
          · cases hstep; exact hb0
        | setPointRange a c r =>
          have hstep : b.setPointRange ⟨a, c⟩ r = .ok b' := hstep
          unfold HashMapBuffer.setPointRange at hstep
          simp only [bind, Except.bind] at hstep
          split at hstep
          · cases hstep
          · cases hstep; exact hb0
        | setAttribute d i v =>
          have hstep : b.setAttribute d i v = .ok b' := hstep
          unfold HashMapBuffer.setAttribute at hstep
          simp only [bind, Except.bind] at hstep
          split at hstep
          · cases hstep
          · split at hstep
            · cases hstep
            · cases hstep; exact hb0
        | setAttributeRange d a c v =>
          have hstep : b.getAttributeRangeMut d ⟨a, c⟩ _ = .ok b' := hstep
          unfold HashMapBuffer.getAttributeRangeMut at hstep
          simp only [bind, Except.bind] at hstep
          repeat' split at hstep
          all_goals first | cases hstep; exact hb0 | cases hstep
        | swap i j =>
          have hstep : b.swap i j = .ok b' := hstep
          unfold HashMapBuffer.swap at hstep
          simp only [bind, Except.bind] at hstep
          repeat' split at hstep
          all_goals first | cases hstep; exact hb0 | cases hstep
        | pushPoints d =>
          exfalso
          have hstep : b.pushPoints d = .ok b' := hstep
          unfold HashMapBuffer.pushPoints at hstep
          have h2 : decide (b.layout.size ≠ 0) = false := decide_eq_false (by rw [hb0]; simp)
          simp only [h2, assertThat, bind, Except.bind, panicked] at hstep
          cases hstep
        | resize n => cases hstep; exact hb0
        | clear => cases hstep; exact hb0
      have hfail : ∀ (ops : List Op) (b b' : HashMapBuffer), b.layout.size = 0 → Op.pushPoints data ∈ ops →
          runOps b ops ≠ .ok b' := by
        intro ops
        induction ops with
        | nil => intro b b' _ hm; simp at hm
        | cons op ops ih =>
          intro b b' hb0 hm hrun
          unfold runOps at hrun
          rw [forLoop_cons] at hrun
          cases hstep : runOp b op with
          | error e => rw [hstep] at hrun; cases hrun
          | ok b1 =>
            rw [hstep] at hrun
            rcases List.mem_cons.1 hm with rfl | hm
            · have hstep : b.pushPoints data = .ok b1 := hstep
              unfold HashMapBuffer.pushPoints at hstep
              have h2 : decide (b.layout.size ≠ 0) = false := decide_eq_false (by rw [hb0]; simp)
              simp only [h2, assertThat, bind, Except.bind, panicked] at hstep
              cases hstep
            · exact ih b1 b' (hkeep b op b1 hb0 hstep) hm hrun
      exact hfail ops _ b hz hop hb
  · refine ⟨_, (key fun op hop data he => ?_).1⟩
    subst he
    rcases Nat.eq_zero_or_pos l.size with hz | hz
    · exact absurd hop (hc hz data)
    · exact hz

/-- A history on the layout with the attribute of size zero, and one on the layout without attributes. -/
example : (∀ op ∈ [Op.pushPoints [1, 2, 3, 0, 4, 5, 6, 0], .setAttribute ⟨"mark", .byteArray 0⟩ 1 [],
      .setAttribute ⟨"c", .u8⟩ 0 [9], .resize 3, .swap 0 2], op.wellFormed gapLayout) ∧
    recordHistory gapLayout [Op.pushPoints [1, 2, 3, 0, 4, 5, 6, 0], .setAttribute ⟨"mark", .byteArray 0⟩ 1 [],
      .setAttribute ⟨"c", .u8⟩ 0 [9], .resize 3, .swap 0 2] [] = .ok [[0, 0, 0, 0], [4, 5, 6, 0], [1, 2, 9, 0]] ∧
    recordHistory PointLayout.default [.resize 3, .swap 0 2, .setPoint 1 [], .pushPoints []] [] = .ok [[], [], []] := by
  refine ⟨?_, by decide, by decide⟩
  simp [Op.wellFormed, gapLayout, AttrDef.size, DataType.size]

/-! ## C10 -/

/-- What two buffers with the same points read is the same. -/
structure ReadAlike {β γ : Type} [BorrowedBuffer β] [BorrowedBuffer γ] (b : β) (c : γ) (l : PointLayout) : Prop where
  len : len b = len c
  layout : layout b = l ∧ layout c = l
  value : ∀ m ∈ l.attributes, ∀ i < BorrowedBuffer.len b, ∀ data, data.length = m.size →
    ∃ v, getAttribute b m.definition i data = .ok v ∧ getAttribute c m.definition i data = .ok v
  point : ∀ i < BorrowedBuffer.len b, ∀ data, data.length = l.size → ∃ r q, getPoint b i data = .ok r ∧
    getPoint c i data = .ok q ∧ pointOf l r = pointOf l q

theorem value?_inside {l : PointLayout} (hl : Orderly l) {rs : List Bytes} {m : Member} (hm : m ∈ l.attributes) {i : Nat}
    (hi : i < rs.length) : value? (rs.map (pointOf l)) m.definition i = some (window rs[i] m.offset m.size) := by
  rw [value?_pointOf, find_def_mem hl hm, List.getElem?_eq_getElem hi]
  rfl

theorem readAlike {β γ : Type} [BorrowedBuffer β] [BorrowedBuffer γ] {b : β} {c : γ} {l : PointLayout} (hl : Orderly l)
    {ps : List Point} (hb : ReadsPoints b l ps) (hc : ReadsPoints c l ps) : ReadAlike b c l := by
  obtain ⟨rs, _, rfl⟩ := hb.records
  have hlen := hb.len_eq
  refine ⟨by rw [hb.len_eq, hc.len_eq], ⟨hb.layout_eq, hc.layout_eq⟩, ?_, ?_⟩
  · intro m hm i hi data hd
    have hv := value?_inside hl hm (i := i) (rs := rs) (by rw [hlen, List.length_map] at hi; exact hi)
    exact ⟨_, hb.getAttribute _ _ _ data hv hd, hc.getAttribute _ _ _ data hv hd⟩
  · intro i hi data hd
    have hp := List.getElem?_eq_getElem (show i < (rs.map (pointOf l)).length by omega)
    obtain ⟨r, h1, _, h2⟩ := hb.getPoint i _ data hp hd
    obtain ⟨q, h3, _, h4⟩ := hc.getPoint i _ data hp hd
    exact ⟨r, q, h1, h3, by rw [h2, h4]⟩

/-- C10, whatever takes no memory: an allowed history that panics for neither kind of buffer gives buffers that read the
    same. -/
theorem C10_any_layout (l : PointLayout) (hl : Orderly l) (ops : List Op) (hops : ∀ op ∈ ops, op.wellFormed l)
    (rs : List Bytes) (hr : recordHistory l ops [] = .ok rs) (v : VectorBuffer) (h : HashMapBuffer)
    (hv : runOps (VectorBuffer.newFromLayout l) ops = .ok v) (hh : runOps (HashMapBuffer.newFromLayout l) ops = .ok h) :
    ReadAlike v h l := by
  obtain ⟨b, h1, h2, _⟩ := C08_any_layout l hl ops hops rs hr
  rw [h1] at hv
  cases hv
  have h3 := history_map hl ops [] AllLen.nil hops
  rw [hr] at h3
  exact readAlike hl h2.points ((C09_any_layout l hl ops hops _ h3).1 h hh).1

/-! ## C11 and C12 -/

/-- Writing attribute `d` of point `i` changes that value, and no other in the buffer. -/
def SetAttributeInside {β : Type} [OwningBuffer β] (b : β) : Prop :=
  ∀ m ∈ (layout b).attributes, ∀ i < len b, ∀ v, v.length = m.size →
    ∃ b', setAttribute b m.definition i v = .ok b' ∧ len b' = len b ∧ layout b' = layout b ∧
      (∀ data, data.length = m.size → getAttribute b' m.definition i data = .ok v) ∧
      (∀ x ∈ (layout b).attributes, ∀ j < len b, x ≠ m ∨ j ≠ i → ∀ data, data.length = x.size →
        getAttribute b' x.definition j data = getAttribute b x.definition j data)

theorem setAttributeInside {β : Type} [OwningBuffer β] [HoldsOrderly β] {l : PointLayout} (hl : Orderly l)
    (hc : ∀ d i v, HoldsOrderly.can β l (.setAttribute d i v)) {rs : List Bytes} (h : AllLen l.size rs) :
    SetAttributeInside (HoldsOrderly.ofRecords l rs : β) := by
  have sh := HoldsOrderly.reads (β := β) hl h
  intro m hm i hi v hv
  rw [sh.layout_eq] at hm
  rw [sh.len_eq, List.length_map] at hi
  have hop : (Op.setAttribute m.definition i v).wellFormed l := hv
  have hd : m.definition ∈ l.attributes.map Member.definition := List.mem_map_of_mem hm
  have ha : (Op.setAttribute m.definition i v).allowed l rs.length := ⟨hd, hi⟩
  have hst := HoldsOrderly.step (β := β) hl h _ hop ha (hc _ _ _)
  have h' := onRecords_allLen hl h hop
  have sh' := HoldsOrderly.reads (β := β) hl h'
  rw [onRecords_map hl h hop ha] at sh'
  have hty : ∀ p ∈ rs.map (pointOf l), Typed l p := by
    intro p hp
    obtain ⟨r, hr, rfl⟩ := List.mem_map.1 hp
    exact pointOf_typed hl (h r hr)
  have hval := fun d' j => value?_set hty hd (i := i) (by simpa using hi) v d' j
  refine ⟨_, hst, ?_, ?_, ?_, ?_⟩
  · rw [sh'.len_eq, sh.len_eq]; simp [Op.onPoints]
  · rw [sh'.layout_eq, sh.layout_eq]
  · intro data hdl
    refine sh'.getAttribute m.definition i v data ?_ hdl
    show value? ((rs.map (pointOf l)).modify i fun p => p.set m.definition v) m.definition i = _
    rw [hval, if_pos ⟨rfl, rfl⟩]
  · intro x hx j hj hne data hdl
    rw [sh.layout_eq] at hx
    rw [sh.len_eq, List.length_map] at hj
    have hv := value?_inside hl hx hj
    rw [sh.getAttribute _ _ _ data hv hdl]
    refine sh'.getAttribute x.definition j _ data ?_ hdl
    show value? ((rs.map (pointOf l)).modify i fun p => p.set m.definition v) x.definition j = _
    rw [hval, if_neg, hv]
    rintro ⟨h1, h2⟩
    rcases hne with hne | hne
    · exact hne (List.inj_on_of_nodup_map (defs_nodup hl) hx hm h1)
    · exact hne h2

/-- C11, whatever takes no memory, for both kinds of buffers. -/
theorem C11_any_layout (l : PointLayout) (hl : Orderly l) :
    (∀ b : VectorBuffer, b.layout = l → VectorConsistent b → SetAttributeInside b) ∧
      (∀ b : HashMapBuffer, b.layout = l → HashMapConsistent b → SetAttributeInside b) := by
  refine ⟨?_, ?_⟩
  · rintro b rfl hb
    obtain ⟨rs, h1, h2⟩ := vector_shows b hb
    rw [h2]
    exact setAttributeInside (β := VectorBuffer) hl (fun _ _ _ => trivial) h1
  · rintro b rfl hb
    obtain ⟨rs, h1, h2⟩ := hashmap_shows b hl hb
    rw [h2]
    exact setAttributeInside (β := HashMapBuffer) hl (fun _ _ _ _ he => by cases he) h1

/-- C12, whatever takes no memory: the point written is read back, and the others are as before. -/
theorem C12_any_layout (l : PointLayout) (hl : Orderly l) (bytes : Bytes) (hbytes : bytes.length = l.size) :
    (∀ b : VectorBuffer, b.layout = l → VectorConsistent b → ∀ i < b.length,
      ∃ b', setPoint b i bytes = .ok b' ∧ len b' = len b ∧ layout b' = l ∧
        (∀ data, data.length = l.size → getPoint b' i data = .ok bytes) ∧
        (∀ j < b.length, j ≠ i → ∀ data, data.length = l.size → getPoint b' j data = getPoint b j data)) ∧
    (∀ b : HashMapBuffer, b.layout = l → HashMapConsistent b → ∀ i < b.length,
      ∃ b', setPoint b i bytes = .ok b' ∧ len b' = len b ∧ layout b' = l ∧
        (∀ data, data.length = l.size → ∃ r, getPoint b' i data = .ok r ∧
          ∀ m ∈ l.attributes, window r m.offset m.size = window bytes m.offset m.size) ∧
        (∀ m ∈ l.attributes, ∀ j < b.length, j ≠ i → ∀ data, data.length = m.size →
          getAttribute b' m.definition j data = getAttribute b m.definition j data)) := by
  refine ⟨?_, ?_⟩
  · rintro b rfl hb i hi
    have hr := Interleaved.records_allLen hb
    have e := Interleaved.ofRecords_records hb
    have hlen : b.records.length = b.length := by simp [Interleaved.records, recordsOf_length]
    have s0 := interleaved_reads hl hr
    have s1 := interleaved_reads hl (hr.set hbytes i)
    have hw := Interleaved.write_block hr (i := i) (by omega) hbytes
    rw [e] at s0 hw
    refine ⟨_, hw, by simp [BorrowedBuffer.len, hlen], rfl, ?_, ?_⟩
    · intro data hd
      exact s1.getPoint i _ data (List.getElem?_set_self (by omega)) hd
    · intro j hj hne data hd
      have hj' := List.getElem?_eq_getElem (show j < b.records.length by omega)
      rw [s0.getPoint j _ data hj' hd]
      exact s1.getPoint j _ data (by rw [List.getElem?_set_ne (Ne.symm hne)]; exact hj') hd
  · rintro b rfl hb i hi
    obtain ⟨rs, hr, hlen, e⟩ := HashMapBuffer.exists_records hl hb
    have s0 := HashMapBuffer.reads hl hr
    have s1 := HashMapBuffer.reads hl (hr.set hbytes i)
    have hw := HashMapBuffer.setPoint_ok hl hr (i := i) (by omega) hbytes
    rw [← e] at s0 hw
    refine ⟨_, hw, by simp [BorrowedBuffer.len, hlen], rfl, ?_, ?_⟩
    · intro data hd
      obtain ⟨r, h1, _, h2⟩ := s1.getPoint i (pointOf b.layout bytes) data
        (by rw [List.getElem?_map, List.getElem?_set_self (by omega)]; rfl) hd
      refine ⟨r, h1, fun m hm => ?_⟩
      unfold pointOf at h2
      exact (Prod.mk.inj ((List.map_inj_left.1 h2) m hm)).2
    · intro m hm j hj hne data hd
      have hv := value?_inside hl hm (rs := rs) (show j < rs.length by omega)
      rw [s0.getAttribute _ _ _ data hv hd]
      refine s1.getAttribute _ _ _ data ?_ hd
      rw [← hv]
      unfold value?
      rw [List.map_set, List.getElem?_set_ne (Ne.symm hne)]

/-- The buffers of `C11_any_layout` and `C12_any_layout`: two points with an attribute that takes no memory. -/
example : VectorConsistent ⟨[1, 2, 3, 0, 4, 5, 6, 0], gapLayout, 2⟩ ∧
    HashMapConsistent ⟨[(⟨"a", .u16⟩, [1, 2, 4, 5]), (⟨"mark", .byteArray 0⟩, []), (⟨"c", .u8⟩, [3, 6])], gapLayout, 2⟩ :=
  ⟨by decide, by decide⟩

/-! ## C13 -/

/-- C13, whatever takes no memory, `append` from any buffer: the points of `a` followed by those of `b`. -/
theorem C13_append_any_layout {γ : Type} [BorrowedBuffer γ] (l : PointLayout) (hl : Orderly l) (b : γ) (qs : List Point)
    (hqs : ReadsPoints b l qs) :
    (∀ a : VectorBuffer, a.layout = l → VectorConsistent a → ∀ ps, ReadsPoints a l ps →
      ∃ c, append a b = .ok c ∧ ReadsPoints c l (ps ++ qs) ∧ VectorConsistent c) ∧
    (∀ a : HashMapBuffer, a.layout = l → HashMapConsistent a → ∀ ps, ReadsPoints a l ps →
      ∃ c, append a b = .ok c ∧ ReadsPoints c l (ps ++ qs) ∧ HashMapConsistent c) := by
  refine ⟨?_, ?_⟩
  · rintro a rfl ha ps hps
    obtain ⟨rs, h1, h2⟩ := vector_shows a ha
    generalize a.layout = l at *
    subst h2
    obtain ⟨ys, g1, g2, g3⟩ := append_orderly (β := VectorBuffer) (fun _ _ => trivial) (fun _ => trivial) hl h1 hqs
    refine ⟨_, g3, ?_, Interleaved.ofRecords_inv (h1.append g1)⟩
    have := (interleaved_reads hl (h1.append g1)).points
    rw [List.map_append, g2] at this
    rw [hps.unique (interleaved_reads hl h1).points]
    exact this
  · rintro a rfl ha ps hps
    obtain ⟨rs, h1, h2⟩ := hashmap_shows a hl ha
    generalize a.layout = l at *
    subst h2
    obtain ⟨ys, g1, g2, g3⟩ := append_orderly (β := HashMapBuffer) (fun _ _ _ h => by cases h) (fun _ _ h => by cases h) hl h1 hqs
    refine ⟨_, g3, ?_, HashMapBuffer.ofRecords_inv hl (h1.append g1)⟩
    have := HashMapBuffer.reads hl (h1.append g1)
    rw [List.map_append, g2] at this
    rw [hps.unique (HashMapBuffer.reads hl h1)]
    exact this

/-- C13, whatever takes no memory, `append_columnar`. -/
theorem C13_append_columnar_any_layout (l : PointLayout) (hl : Orderly l) (b : HashMapBuffer) (hb : b.layout = l)
    (hbc : HashMapConsistent b) (qs : List Point) (hqs : ReadsPoints b l qs) :
    (∀ a : VectorBuffer, a.layout = l → VectorConsistent a → ∀ ps, ReadsPoints a l ps →
      ∃ c, VectorBuffer.appendColumnar a b = .ok c ∧ ReadsPoints c l (ps ++ qs) ∧ VectorConsistent c) ∧
    (∀ a : HashMapBuffer, a.layout = l → HashMapConsistent a → ∀ ps, ReadsPoints a l ps →
      ∃ c, HashMapBuffer.appendColumnar a b = .ok c ∧ ReadsPoints c l (ps ++ qs) ∧ HashMapConsistent c) := by
  subst hb
  obtain ⟨ys, g1, g2⟩ := hashmap_shows b hl hbc
  obtain ⟨l, hlay⟩ : ∃ l, l = b.layout := ⟨_, rfl⟩
  rw [← hlay] at hl g1 g2 hqs ⊢
  subst g2
  have hq := hqs.unique (HashMapBuffer.reads hl g1)
  refine ⟨?_, ?_⟩
  · intro a hal ha ps hps
    obtain ⟨rs, h1, h2⟩ := vector_shows a ha
    rw [hal] at h1 h2
    subst h2
    obtain ⟨zs, k1, k2, k3⟩ := vector_columnar_orderly h1 hqs
    refine ⟨_, k3, ?_, Interleaved.ofRecords_inv (h1.append k1)⟩
    have := (interleaved_reads hl (h1.append k1)).points
    rw [List.map_append, k2] at this
    rw [hps.unique (interleaved_reads hl h1).points]
    exact this
  · intro a hal ha ps hps
    obtain ⟨rs, h1, h2⟩ := hashmap_shows a (hal ▸ hl) ha
    rw [hal] at h1 h2
    subst h2
    refine ⟨_, hashmap_columnar_orderly hl g1, ?_, HashMapBuffer.ofRecords_inv hl (h1.append g1)⟩
    rw [hps.unique (HashMapBuffer.reads hl h1), hq, ← List.map_append]
    exact HashMapBuffer.reads hl (h1.append g1)

/-- C13, `append_interleaved`, if the points take memory. Otherwise it is wrong: `C100_append_interleaved_violated`. -/
theorem C13_append_interleaved_any_layout (l : PointLayout) (hl : Orderly l) (hsz : 0 < l.size) (b : VectorBuffer)
    (hb : b.layout = l) (hbc : VectorConsistent b) (qs : List Bytes) (hqs : ReadsRecords b l qs) :
    (∀ a : VectorBuffer, a.layout = l → VectorConsistent a → ∀ rs, ReadsRecords a l rs →
      ∃ c, VectorBuffer.appendInterleaved a b = .ok c ∧ ReadsRecords c l (rs ++ qs) ∧ VectorConsistent c) ∧
    (∀ a : HashMapBuffer, a.layout = l → HashMapConsistent a → ∀ ps, ReadsPoints a l ps →
      ∃ c, HashMapBuffer.appendInterleaved a b = .ok c ∧ ReadsPoints c l (ps ++ qs.map (pointOf l)) ∧
        HashMapConsistent c) := by
  have huniq : ∀ {b : VectorBuffer} {xs ys : List Bytes}, ReadsRecords b l xs → ReadsRecords b l ys → xs = ys := by
    intro b xs ys h1 h2
    have hlen : xs.length = ys.length := by
      have := h1.points.len_eq; rw [h2.points.len_eq] at this; simpa using this.symm
    apply List.ext_getElem hlen
    intro i hi hi'
    have e1 := h1.getPointRef i _ (List.getElem?_eq_getElem hi)
    rw [h2.getPointRef i _ (List.getElem?_eq_getElem hi')] at e1
    exact (Except.ok.inj e1).symm
  obtain ⟨ys, g1, g2⟩ := vector_shows b hbc
  rw [hb] at g1 g2
  subst g2
  cases huniq hqs (interleaved_reads hl g1)
  have hall : InterleavedBuffer.getPointRangeRef (Interleaved.ofRecords l qs)
      ⟨0, len (Interleaved.ofRecords l qs)⟩ = .ok qs.flatten := by
    have h := hqs.getPointRangeRef 0 qs.length (Nat.zero_le _) (Nat.le_refl _)
    rw [List.drop_zero, Nat.sub_zero, List.take_length] at h
    exact h
  refine ⟨?_, ?_⟩
  · intro a hal ha rs hrs
    obtain ⟨xs, h1, h2⟩ := vector_shows a ha
    rw [hal] at h1 h2
    subst h2
    cases huniq hrs (interleaved_reads hl h1)
    refine ⟨_, ?_, interleaved_reads hl (h1.append g1), Interleaved.ofRecords_inv (h1.append g1)⟩
    unfold VectorBuffer.appendInterleaved
    rw [assertThat_true (show decide ((Interleaved.ofRecords l rs).layout =
      layout (Interleaved.ofRecords l qs)) = true from decide_eq_true rfl), hall]
    exact Interleaved.pushPoints_ok hsz g1
  · intro a hal ha ps hps
    obtain ⟨xs, h1, h2⟩ := hashmap_shows a (hal ▸ hl) ha
    rw [hal] at h1 h2
    subst h2
    refine ⟨HashMapBuffer.ofRecords l (xs ++ qs), ?_, ?_, HashMapBuffer.ofRecords_inv hl (h1.append g1)⟩
    · unfold HashMapBuffer.appendInterleaved
      rw [assertThat_true (show decide ((HashMapBuffer.ofRecords l xs).layout =
        layout (Interleaved.ofRecords l qs)) = true from decide_eq_true rfl), hall]
      exact HashMapBuffer.pushPoints_orderly hl hsz g1
    · rw [hps.unique (HashMapBuffer.reads hl h1), ← List.map_append]
      exact HashMapBuffer.reads hl (h1.append g1)

/-- Every consistent buffer reads some points: the hypotheses of C13, C16 and C17 are met. -/
theorem C13_any_layout_met (l : PointLayout) (hl : Orderly l) :
    (∀ b : VectorBuffer, b.layout = l → VectorConsistent b → ∃ rs, ReadsRecords b l rs) ∧
      (∀ b : HashMapBuffer, b.layout = l → HashMapConsistent b → ∃ ps, ReadsPoints b l ps) := by
  refine ⟨?_, ?_⟩
  · rintro b rfl hb
    obtain ⟨rs, h1, h2⟩ := vector_shows b hb
    rw [h2]
    exact ⟨rs, interleaved_reads hl h1⟩
  · rintro b rfl hb
    obtain ⟨rs, h1, h2⟩ := hashmap_shows b hl hb
    rw [h2]
    exact ⟨_, HashMapBuffer.reads hl h1⟩

/-! ## C16 and C17 -/

/-- C16, whatever takes no memory: the points the predicate selects, in their order, in a new buffer of either kind. -/
theorem C16_any_layout (b : HashMapBuffer) (hl : Orderly b.layout) (hb : HashMapConsistent b) (ps : List Point)
    (hps : ReadsPoints b b.layout ps) (p : Nat → Bool) :
    (∃ c, b.filterToHashMap p = .ok c ∧ ReadsPoints c b.layout (keep p ps) ∧ HashMapConsistent c) ∧
      (∃ c, b.filterToVector p = .ok c ∧ ReadsPoints c b.layout (keep p ps) ∧ VectorConsistent c) := by
  obtain ⟨rs, h1, h2⟩ := hashmap_shows b hl hb
  generalize b.layout = l at *
  subst h2
  have hz : (List.replicate l.size (0 : Byte)).length = l.size := by simp
  have hr : AllLen l.size (resized [] ((HashMapBuffer.ofRecords l rs).matching p).length (List.replicate l.size (0 : Byte))) := by
    simp only [resized, List.take_nil, List.nil_append]; exact AllLen.replicate hz _
  have hrl : (resized [] ((HashMapBuffer.ofRecords l rs).matching p).length (List.replicate l.size (0 : Byte))).length =
      ((HashMapBuffer.ofRecords l rs).matching p).length := by simp [resized]
  have e : overwrite (resized [] ((HashMapBuffer.ofRecords l rs).matching p).length (List.replicate l.size (0 : Byte))) 0
      (keep p rs) = keep p rs := by
    unfold overwrite
    rw [List.drop_eq_nil_of_le (by rw [hrl, keep_length]; omega)]
    simp
  have hk : AllLen l.size (keep p rs) := by
    rw [← sel_keep (l := l)]
    exact sel_allLen h1 (HashMapBuffer.matching_lt (HashMapBuffer.ofRecords l rs) p)
  rw [hps.unique (HashMapBuffer.reads hl h1), keep_map]
  constructor
  · have := HashMapBuffer.filterIntoColumnar_ok hl h1 hr p (some _) (by rw [hrl]) rfl
    rw [sel_keep, e] at this
    unfold HashMapBuffer.filterToHashMap
    dsimp only
    rw [HashMapBuffer.newFromLayout_eq, HashMapBuffer.resize_ok hl AllLen.nil]
    exact ⟨_, this, HashMapBuffer.reads hl hk, HashMapBuffer.ofRecords_inv hl hk⟩
  · obtain ⟨us, g1, g2, _, g3⟩ := HashMapBuffer.filterIntoInterleaved_ok hl h1 hr p (some _) (by rw [hrl]) rfl
    rw [sel_keep, e] at g2
    unfold HashMapBuffer.filterToVector
    dsimp only
    have e0 : VectorBuffer.newFromLayout l = Interleaved.ofRecords l [] := rfl
    rw [e0, Interleaved.resize_ok AllLen.nil]
    refine ⟨_, g3, ?_, Interleaved.ofRecords_inv g1⟩
    rw [← g2]
    exact (interleaved_reads hl g1).points

/-- C17, whatever takes no memory, for slices of any buffer: the points of the range, and nothing outside it. -/
theorem C17_any_layout {β : Type} [BorrowedBuffer β] (b : β) (l : PointLayout) (hl : Orderly l) (ps : List Point)
    (h : ReadsPoints b l ps) (s e : Nat) (hse : s ≤ e) (he : e ≤ len b) :
    ReadsPoints (⟨b, ⟨s, e⟩⟩ : BufferSlice β) l (sub ps s e) ∧
      (∀ i data, e - s ≤ i → getPoint (⟨b, ⟨s, e⟩⟩ : BufferSlice β) i data = panicked) ∧
      (∀ d i data, e - s ≤ i → getAttribute (⟨b, ⟨s, e⟩⟩ : BufferSlice β) d i data = panicked) ∧
      (∀ a c data, e - s < c → getPointRange (⟨b, ⟨s, e⟩⟩ : BufferSlice β) ⟨a, c⟩ data = panicked) := by
  rw [h.len_eq] at he
  refine ⟨slice_reads hl h hse he, ?_, ?_, ?_⟩
  · intro i data hi
    show (globalIndex i ⟨s, e⟩).bind _ = _
    rw [globalIndex_panic hi]; rfl
  · intro d i data hi
    show (globalIndex i ⟨s, e⟩).bind _ = _
    rw [globalIndex_panic hi]; rfl
  · intro a c data hc
    show (globalRange ⟨a, c⟩ ⟨s, e⟩).bind _ = _
    rw [globalRange_panic hc]; rfl

end Pasture.Props
