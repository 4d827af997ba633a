import Verif.Lemmas.ViewAddress
import Verif.Lemmas.ViewsShow
import Verif.Props.Buffers

/-!
# C91: views by reference hand out the points themselves

`references addr size rs` (`Verif.Spec.ViewAddress`) are references to values that lie one after the other
from `addr` on. Memory obtained from an allocator is assumed to be aligned only where a theorem says so.
-/

namespace Pasture.Props

open Pasture Pasture.Spec BorrowedBuffer

/-! ## Every reference is aligned -/

/-- A reference from `at_ref` or `at_mut`, whatever the buffer and wherever its memory is, is aligned for
    `T` and refers to `size_of::<T>()` bytes. -/
theorem C91_at_ref_aligned {β : Type} [PlacedPoints β] (b : β) (t : Pod) (i : Nat) (m : Mem)
    (h : PointView.refAt b t i = .ok m) : m.addr % t.align = 0 ∧ m.bytes.length = t.size := by
  unfold PointView.refAt at h
  obtain ⟨x, _, hx⟩ : ∃ x, PlacedPoints.pointMem b i = .ok x ∧ fromBytesAt t x = .ok m := by
    cases hp : PlacedPoints.pointMem b i with
    | error e => rw [hp] at h; cases h
    | ok x => rw [hp] at h; exact ⟨x, rfl, h⟩
  unfold fromBytesAt at hx
  by_cases h1 : x.bytes.length = t.size
  · by_cases h2 : x.addr % t.align = 0
    · rw [assertThat_true (decide_eq_true h1), assertThat_true (decide_eq_true h2)] at hx
      cases hx
      exact ⟨h2, h1⟩
    · rw [assertThat_true (decide_eq_true h1), assertThat_false (decide_eq_false h2)] at hx
      cases hx
  · rw [assertThat_false (decide_eq_false h1)] at hx
    cases hx

theorem castSliceAt_aligned {t : Pod} (ht : Pod.Valid t) {x : Mem} {ms : List Mem}
    (h : castSliceAt t x = .ok ms) {m : Mem} (hm : m ∈ ms) : t.align ∣ m.addr := by
  unfold castSliceAt at h
  by_cases h1 : t.align ≤ 1 ∨ x.addr % t.align = 0
  · rw [assertThat_true (decide_eq_true h1)] at h
    have hd : t.align ∣ x.addr := by
      rcases h1 with h1 | h1
      · have := ht.align_pos
        rw [show t.align = 1 by omega]
        exact Nat.one_dvd _
      · exact Nat.dvd_of_mod_eq_zero h1
    cases hc : castSlice t.size x.bytes with
    | error e => rw [hc] at h; cases h
    | ok vs =>
      rw [hc] at h
      cases h
      obtain ⟨i, hi, rfl⟩ := List.mem_mapIdx.1 hm
      exact Nat.dvd_add hd (Nat.dvd_mul_left_of_dvd ht.divides i)
  · rw [assertThat_false (decide_eq_false h1)] at h
    cases h

/-- The same for the references of `iter`, `iter_mut` and `sort_by`. -/
theorem C91_iter_aligned {β : Type} [BorrowedBuffer β] [PlacedPoints β] (b : β) (t : Pod)
    (ht : Pod.Valid t) (ms : List Mem) (h : PointView.allRefs b t = .ok ms) : ∀ m ∈ ms, t.align ∣ m.addr := by
  unfold PointView.allRefs at h
  cases hp : PlacedPoints.pointRangeMem b ⟨0, len b⟩ with
  | error e => rw [hp] at h; cases h
  | ok x => rw [hp] at h; exact fun m hm => castSliceAt_aligned ht h hm

/-! ## Which references -/

/-- References to different values do not overlap. -/
theorem C91_disjoint (addr size : Nat) (rs : List Bytes) (i j : Nat) (hij : i < j) (x y : Mem)
    (hx : (references addr size rs)[i]? = some x) (hy : (references addr size rs)[j]? = some y) :
    x.addr + size ≤ y.addr := by
  rw [references_get] at hx hy
  obtain ⟨r, _, rfl⟩ := Option.map_eq_some_iff.1 hx
  obtain ⟨r', _, rfl⟩ := Option.map_eq_some_iff.1 hy
  have := Nat.mul_le_mul_right size (show i + 1 ≤ j from hij)
  rw [Nat.succ_mul] at this
  show addr + i * size + size ≤ addr + j * size
  omega

/-- The points of `b`, of `size` bytes each, lie one after the other from `addr` on. -/
structure PointsLie {β : Type} [BorrowedBuffer β] [PlacedPoints β] (b : β) (size addr : Nat)
    (rs : List Bytes) : Prop where
  len_eq : len b = rs.length
  lies : Lies (PlacedPoints.pointMem b) (PlacedPoints.pointRangeMem b) size addr rs

/-- The values of attribute `d` of `b` lie one after the other from `addr` on. -/
structure ColumnLies {β : Type} [BorrowedBuffer β] [PlacedColumns β] (b : β) (d : AttrDef) (size addr : Nat)
    (xs : List Bytes) : Prop where
  len_eq : len b = xs.length
  lies : Lies (PlacedColumns.attributeMem b d) (PlacedColumns.attributeRangeMem b d) size addr xs

theorem refs_of_lies {one : Nat → Out Mem} {many : Rng → Out Mem} {addr n : Nat} {rs : List Bytes} {t : Pod}
    (ht : Pod.Valid t) (hs : 0 < t.size) (hn : n = rs.length) (h : Lies one many t.size addr rs) :
    (∀ i r, rs[i]? = some r → (do fromBytesAt t (← one i)) =
      if t.align ∣ addr then .ok ⟨addr + i * t.size, r⟩ else .error .panic) ∧
    (do castSliceAt t (← many ⟨0, n⟩)) =
      if t.align ∣ addr then .ok (references addr t.size rs) else .error .panic := by
  constructor
  · intro i r hr
    rw [h.one_eq i r hr]
    exact fromBytes_value ht (h.sizes r (List.mem_of_getElem? hr))
  · by_cases h0 : rs = []
    · subst h0
      obtain ⟨k, _, hk⟩ := h.many_empty 0 (Nat.zero_le _)
      rw [hn, show ([] : List Bytes).length = 0 from rfl, hk]
      have := castSliceAt_region ht hs (addr := addr) (k := k) (rs := []) (by intro r hr; cases hr)
      simpa [references, bind, Except.bind] using this
    · have hpos : 0 < rs.length := List.length_pos_iff.2 h0
      rw [hn, h.many_eq 0 rs.length hpos (Nat.le_refl _)]
      have := castSliceAt_region ht hs (addr := addr) (k := 0) h.sizes
      simpa [bind, Except.bind] using this

/-- C91, points: if the address of the first point is a multiple of the alignment of `T`, then `at_ref` and
    `at_mut` return the reference to point `i`, and `iter`, `iter_mut` and `sort_by` those to all points in
    order; otherwise all of them panic. (C91 asks for references from every buffer: see
    `C91_empty_violated`.) -/
theorem C91_points_partial {β : Type} [BorrowedBuffer β] [PlacedPoints β] (b : β) (t : Pod)
    (ht : Pod.Valid t) (hs : 0 < t.size) (addr : Nat) (rs : List Bytes) (h : PointsLie b t.size addr rs) :
    (∀ i r, rs[i]? = some r → PointView.refAt b t i =
      if t.align ∣ addr then .ok ⟨addr + i * t.size, r⟩ else .error .panic) ∧
    PointView.allRefs b t =
      if t.align ∣ addr then .ok (references addr t.size rs) else .error .panic :=
  refs_of_lies ht hs h.len_eq h.lies

/-- C91, attributes of columnar buffers. -/
theorem C91_attributes_partial {β : Type} [BorrowedBuffer β] [PlacedColumns β] (b : β) (t : Pod)
    (ht : Pod.Valid t) (hs : 0 < t.size) (d : AttrDef) (addr : Nat) (xs : List Bytes)
    (h : ColumnLies b d t.size addr xs) :
    (∀ i x, xs[i]? = some x → AttributeView.refAt b t d i =
      if t.align ∣ addr then .ok ⟨addr + i * t.size, x⟩ else .error .panic) ∧
    AttributeView.allRefs b t d =
      if t.align ∣ addr then .ok (references addr t.size xs) else .error .panic :=
  refs_of_lies ht hs h.len_eq h.lies

/-! ## Where the points of pasture's buffers lie -/

/-- The points of a `VectorBuffer` or `ExternalMemoryBuffer` lie one after the other in its memory. -/
theorem C91_vector (p : PlacedInterleaved) (hp : VectorConsistent p.buffer) (hs : 0 < p.buffer.layout.size) :
    ∃ rs, PointsLie p p.buffer.layout.size p.addr rs ∧
      RefusesFrom (PlacedPoints.pointMem p) rs.length ∧
      ∀ i r, rs[i]? = some r → InterleavedBuffer.getPointRef p.buffer i = .ok r := by
  obtain ⟨⟨storage, l, n⟩, addr⟩ := p
  have hlen : storage.length = n * l.size := hp
  have ha : AllLen l.size (recordsOf l.size n storage) := recordsOf_allLen hlen
  have hf : (recordsOf l.size n storage).flatten = storage := flatten_recordsOf hlen
  have hn : (recordsOf l.size n storage).length = n := by simp [recordsOf]
  have h1 := lies_region (addr := addr) ha
  have h2 := bounded_region (addr := addr) ha hs
  rw [hf] at h1 h2
  refine ⟨recordsOf l.size n storage, ⟨hn.symm, h1⟩, h2, ?_⟩
  intro i r hr
  have := h1.one_eq i r hr
  show sliceGet storage (i * l.size) ((i + 1) * l.size) = _
  unfold Mem.slice at this
  cases hg : sliceGet storage (i * l.size) ((i + 1) * l.size) with
  | error e => rw [hg] at this; cases this
  | ok x =>
    rw [hg] at this
    simp only [bind, Except.bind, pure, Except.pure, Except.ok.injEq, Mem.mk.injEq, true_and] at this
    rw [this]

/-- The values of an attribute of a `HashMapBuffer` lie one after the other in its column. -/
theorem C91_columns (p : PlacedHashMap) (hp : HashMapConsistent p.buffer) (d : AttrDef)
    (hd : d ∈ p.buffer.layout.attributes.map Member.definition) (hs : 0 < d.size) :
    ∃ xs, ColumnLies p d d.size (p.addr d) xs ∧
      RefusesFrom (PlacedColumns.attributeMem p d) xs.length ∧
      ∀ i x, xs[i]? = some x → ColumnarBuffer.getAttributeRef p.buffer d i = .ok x := by
  obtain ⟨⟨columns, l, n⟩, addr⟩ := p
  obtain ⟨hk, hc⟩ := hp
  simp only at hk hc hd ⊢
  obtain ⟨col, hcol, hlen⟩ : ∃ col, Columns.get columns d = some col ∧ col.length = n * d.size := by
    rw [← hk] at hd
    clear hk
    induction columns with
    | nil => cases hd
    | cons kv cs ih =>
      obtain ⟨k, col⟩ := kv
      unfold Columns.get
      by_cases e : d = k
      · subst e
        exact ⟨col, by simp, hc (d, col) (by simp)⟩
      · have hd' : d ∈ cs.map Prod.fst := by simpa [e] using hd
        obtain ⟨c, h1, h2⟩ := ih hd' (fun kv hkv => hc kv (by simp [hkv]))
        refine ⟨c, ?_, h2⟩
        rw [List.lookup_cons, show (d == k) = false by simpa using e]
        exact h1
  have ha : AllLen d.size (recordsOf d.size n col) := recordsOf_allLen hlen
  have hf : (recordsOf d.size n col).flatten = col := flatten_recordsOf hlen
  have hn : (recordsOf d.size n col).length = n := by simp [recordsOf]
  have h1 := lies_region (addr := addr d) ha
  have h2 := bounded_region (addr := addr d) ha hs
  rw [hf] at h1 h2
  have e1 : PlacedColumns.attributeMem (⟨⟨columns, l, n⟩, addr⟩ : PlacedHashMap) d =
      fun i => (Mem.mk (addr d) col).slice (i * d.size) ((i + 1) * d.size) := by
    funext i
    show (expectSome (Columns.get columns d)).bind _ = _
    rw [hcol]
    rfl
  have e2 : PlacedColumns.attributeRangeMem (⟨⟨columns, l, n⟩, addr⟩ : PlacedHashMap) d =
      fun q => (Mem.mk (addr d) col).slice (q.start * d.size) (q.stop * d.size) := by
    funext q
    show (expectSome (Columns.get columns d)).bind _ = _
    rw [hcol]
    rfl
  refine ⟨recordsOf d.size n col, ⟨hn.symm, by rw [e1, e2]; exact h1⟩, by rw [e1]; exact h2, ?_⟩
  intro i r hr
  have := h1.one_eq i r hr
  show (expectSome (Columns.get columns d)).bind _ = _
  rw [hcol]
  show sliceGet col (i * d.size) ((i + 1) * d.size) = _
  unfold Mem.slice at this
  cases hg : sliceGet col (i * d.size) ((i + 1) * d.size) with
  | error e => rw [hg] at this; cases this
  | ok x =>
    rw [hg] at this
    simp only [bind, Except.bind, pure, Except.pure, Except.ok.injEq, Mem.mk.injEq, true_and] at this
    rw [this]

theorem lies_congr {one one' : Nat → Out Mem} {many many' : Rng → Out Mem} {size addr : Nat} {rs : List Bytes}
    (h : Lies one many size addr rs) (e1 : one' = one) (e2 : many' = many) : Lies one' many' size addr rs := by
  rw [e1, e2]
  exact h

/-- The points of a slice lie where they lie in the buffer. -/
theorem C91_slice {β : Type} [BorrowedBuffer β] [PlacedPoints β] (b : β) (size addr : Nat) (rs : List Bytes)
    (h : PointsLie b size addr rs) (s e : Nat) (hse : s ≤ e) (he : e ≤ rs.length) :
    PointsLie (⟨b, ⟨s, e⟩⟩ : BufferSlice β) size (addr + s * size) ((rs.drop s).take (e - s)) ∧
      RefusesFrom (PlacedPoints.pointMem (⟨b, ⟨s, e⟩⟩ : BufferSlice β)) (e - s) :=
  ⟨⟨(part_length he).symm, lies_slice h.lies he hse⟩, bounded_slice⟩

/-- The points of a mutable slice lie where they lie in the buffer. (Indices past its end need not be
    refused: C18.) -/
theorem C91_slice_mut {β : Type} [BorrowedMutBuffer β] [PlacedPoints β] (b : β) (size addr : Nat)
    (rs : List Bytes) (h : PointsLie b size addr rs) (s e : Nat) (hse : s ≤ e) (he : e ≤ rs.length) :
    PointsLie (⟨b, ⟨s, e⟩⟩ : BufferSliceMut β) size (addr + s * size) ((rs.drop s).take (e - s)) :=
  ⟨(part_length he).symm, lies_slice_mut h.lies he hse⟩

/-- The same for the values of an attribute. -/
theorem C91_slice_columns {β : Type} [BorrowedBuffer β] [PlacedColumns β] (b : β) (d : AttrDef)
    (size addr : Nat) (xs : List Bytes) (h : ColumnLies b d size addr xs) (s e : Nat) (hse : s ≤ e)
    (he : e ≤ xs.length) :
    ColumnLies (⟨b, ⟨s, e⟩⟩ : BufferSlice β) d size (addr + s * size) ((xs.drop s).take (e - s)) ∧
      RefusesFrom (PlacedColumns.attributeMem (⟨b, ⟨s, e⟩⟩ : BufferSlice β) d) (e - s) :=
  ⟨⟨(part_length he).symm, lies_slice h.lies he hse⟩, bounded_slice⟩

theorem C91_slice_mut_columns {β : Type} [BorrowedMutBuffer β] [PlacedColumns β] (b : β) (d : AttrDef)
    (size addr : Nat) (xs : List Bytes) (h : ColumnLies b d size addr xs) (s e : Nat) (hse : s ≤ e)
    (he : e ≤ xs.length) :
    ColumnLies (⟨b, ⟨s, e⟩⟩ : BufferSliceMut β) d size (addr + s * size) ((xs.drop s).take (e - s)) :=
  ⟨(part_length he).symm, lies_slice_mut h.lies he hse⟩

/-- So a slice has references to its points iff the whole buffer has. -/
theorem C91_slice_aligned (t : Pod) (ht : Pod.Valid t) (addr s : Nat) :
    t.align ∣ addr + s * t.size ↔ t.align ∣ addr :=
  Nat.dvd_add_left (Nat.dvd_mul_left_of_dvd ht.divides s)

/-! ## Histories of a `VectorBuffer` -/

/-- A call on a `VectorBuffer`, with the address of its memory after the call. -/
inductive MemCall where
  | push (bytes : Bytes) (heap : Nat)
  | clear

def MemCall.run (p : PlacedInterleaved) : MemCall → Out PlacedInterleaved
  | .push bytes heap => p.pushPoints bytes heap
  | .clear => .ok p.clear

/-- The calls one after the other. -/
def runMemCalls : List MemCall → PlacedInterleaved → Out PlacedInterleaved
  | [], p => .ok p
  | c :: cs, p => do
    let p ← c.run p
    runMemCalls cs p

/-- The call stores something. -/
def MemCall.stores : MemCall → Prop
  | .push bytes _ => bytes ≠ []
  | .clear => False

/-- The allocator returned memory that is aligned for `T`. -/
def MemCall.alignedFor (t : Pod) : MemCall → Prop
  | .push _ heap => t.align ∣ heap
  | .clear => True

theorem memCall_step {p q : PlacedInterleaved} {c : MemCall} (hs : 0 < p.buffer.layout.size)
    (hp : VectorConsistent p.buffer) (h : c.run p = .ok q) :
    VectorConsistent q.buffer ∧ q.buffer.layout = p.buffer.layout ∧
      ((¬ c.stores ∧ q.addr = p.addr) ∨ ∃ bytes heap, c = .push bytes heap ∧ bytes ≠ [] ∧ q.addr = heap) := by
  cases c with
  | clear =>
    cases h
    exact ⟨by simp [VectorConsistent, PlacedInterleaved.clear, VectorBuffer.clear], rfl,
      .inl ⟨id, rfl⟩⟩
  | push bytes heap =>
    have h' : (VectorBuffer.pushPoints p.buffer bytes).bind
        (fun b => .ok ⟨b, if bytes = [] then p.addr else heap⟩) = .ok q := h
    unfold VectorBuffer.pushPoints at h'
    rw [if_neg (by omega)] at h'
    by_cases hm : bytes.length % p.buffer.layout.size = 0
    · rw [assertThat_true (decide_eq_true hm)] at h'
      cases h'
      refine ⟨?_, rfl, ?_⟩
      · unfold VectorConsistent at hp ⊢
        simp only [List.length_append]
        rw [hp, Nat.add_mul, Nat.div_mul_cancel (Nat.dvd_of_mod_eq_zero hm)]
      · by_cases h0 : bytes = []
        · exact .inl ⟨fun h => h h0, by simp [h0]⟩
        · exact .inr ⟨bytes, heap, rfl, h0, by simp [h0]⟩
    · rw [assertThat_false (decide_eq_false hm)] at h'
      cases h'

theorem memCalls_run {t : Pod} : ∀ {cs : List MemCall} {p q : PlacedInterleaved},
    0 < p.buffer.layout.size → VectorConsistent p.buffer → (∀ c ∈ cs, c.alignedFor t) →
    runMemCalls cs p = .ok q →
    VectorConsistent q.buffer ∧ q.buffer.layout = p.buffer.layout ∧
      (t.align ∣ q.addr ↔ t.align ∣ p.addr ∨ ∃ c ∈ cs, c.stores)
  | [], p, q, _, hp, _, h => by
    cases h
    exact ⟨hp, rfl, by simp⟩
  | c :: cs, p, q, hs, hp, ha, h => by
    unfold runMemCalls at h
    cases hc : c.run p with
    | error e => rw [hc] at h; cases h
    | ok p' =>
      rw [hc] at h
      obtain ⟨h1, h2, h3⟩ := memCall_step hs hp hc
      obtain ⟨g1, g2, g3⟩ := memCalls_run (t := t) (h2 ▸ hs) h1 (fun c hc => ha c (by simp [hc])) h
      refine ⟨g1, g2.trans h2, g3.trans ?_⟩
      rcases h3 with ⟨h3, h4⟩ | ⟨bytes, heap, rfl, h4, h5⟩
      · rw [h4]
        simp [h3]
      · have hd : t.align ∣ p'.addr := by rw [h5]; exact ha (.push bytes heap) (by simp)
        have hst : (MemCall.push bytes heap).stores := h4
        simp [hd, hst]

/-- C91 for the whole life of a `VectorBuffer`, given an allocator that returns memory aligned for `T` (of
    alignment greater than 1): views by reference have all the points, in order, once something was ever
    stored in the buffer, also if it was cleared since, and panic before that. -/
theorem C91_history_partial (l : PointLayout) (t : Pod) (ht : Pod.Valid t) (hl : t.size = l.size)
    (hs : 0 < t.size) (h1 : 1 < t.align) (cs : List MemCall) (hc : ∀ c ∈ cs, c.alignedFor t)
    (q : PlacedInterleaved) (h : runMemCalls cs (.newFromLayout l) = .ok q) :
    ∃ rs, len q = rs.length ∧
      (∀ i r, rs[i]? = some r → InterleavedBuffer.getPointRef q.buffer i = .ok r) ∧
      ((∃ c ∈ cs, c.stores) → PointView.allRefs q t = .ok (references q.addr t.size rs) ∧
        ∀ i r, rs[i]? = some r → PointView.refAt q t i = .ok ⟨q.addr + i * t.size, r⟩) ∧
      ((¬ ∃ c ∈ cs, c.stores) → PointView.allRefs q t = .error .panic) := by
  obtain ⟨h2, h3, h4⟩ := memCalls_run (p := .newFromLayout l) (by show 0 < l.size; omega)
    (by simp [VectorConsistent, PlacedInterleaved.newFromLayout, VectorBuffer.newFromLayout]) hc h
  have hsz : q.buffer.layout.size = t.size := by rw [h3, hl]; rfl
  obtain ⟨rs, h5, _, h6⟩ := C91_vector q h2 (by rw [hsz]; exact hs)
  rw [hsz] at h5
  obtain ⟨r1, r2⟩ := C91_points_partial q t ht hs q.addr rs h5
  have hnd : ¬ t.align ∣ (PlacedInterleaved.newFromLayout l).addr := by
    intro hd
    have := Nat.le_of_dvd (by simp [PlacedInterleaved.newFromLayout, danglingAddr]) hd
    simp only [PlacedInterleaved.newFromLayout, danglingAddr] at this
    omega
  refine ⟨rs, h5.len_eq, h6, ?_, ?_⟩
  · intro hst
    have hd := h4.2 (.inr hst)
    rw [r2, if_pos hd]
    refine ⟨rfl, ?_⟩
    intro i r hr
    rw [r1 i r hr, if_pos hd]
  · intro hst
    rw [r2, if_neg]
    intro hd
    rcases h4.1 hd with hd | hd
    · exact hnd hd
    · exact hst hd

/-- The same for a buffer made with room for `capacity` points: it has memory from the start if there is room for one. -/
theorem C91_capacity_partial (l : PointLayout) (t : Pod) (ht : Pod.Valid t) (hl : t.size = l.size)
    (hs : 0 < t.size) (h1 : 1 < t.align) (capacity heap : Nat) (hh : t.align ∣ heap) (cs : List MemCall)
    (hc : ∀ c ∈ cs, c.alignedFor t) (q : PlacedInterleaved) (h : runMemCalls cs (.withCapacity capacity l heap) = .ok q) :
    ∃ rs, len q = rs.length ∧
      (∀ i r, rs[i]? = some r → InterleavedBuffer.getPointRef q.buffer i = .ok r) ∧
      (0 < capacity ∨ (∃ c ∈ cs, c.stores) → PointView.allRefs q t = .ok (references q.addr t.size rs) ∧
        ∀ i r, rs[i]? = some r → PointView.refAt q t i = .ok ⟨q.addr + i * t.size, r⟩) ∧
      (capacity = 0 → (¬ ∃ c ∈ cs, c.stores) → PointView.allRefs q t = .error .panic) := by
  obtain ⟨h2, h3, h4⟩ := memCalls_run (p := .withCapacity capacity l heap) (by show 0 < l.size; omega)
    (by simp [VectorConsistent, PlacedInterleaved.withCapacity, VectorBuffer.newFromLayout]) hc h
  have hsz : q.buffer.layout.size = t.size := by rw [h3, hl]; rfl
  obtain ⟨rs, h5, _, h6⟩ := C91_vector q h2 (by rw [hsz]; exact hs)
  rw [hsz] at h5
  obtain ⟨r1, r2⟩ := C91_points_partial q t ht hs q.addr rs h5
  refine ⟨rs, h5.len_eq, h6, ?_, ?_⟩
  · intro hst
    have hd : t.align ∣ q.addr := by
      apply h4.2
      rcases hst with h0 | hst
      · have := Nat.mul_pos h0 (hl ▸ hs : 0 < l.size)
        simp only [PlacedInterleaved.withCapacity]
        rw [if_neg (by omega)]
        exact .inl hh
      · exact .inr hst
    rw [r2, if_pos hd]
    refine ⟨rfl, ?_⟩
    intro i r hr
    rw [r1 i r hr, if_pos hd]
  · intro h0 hst
    rw [r2, if_neg]
    intro hd
    rcases h4.1 hd with hd | hd
    · simp only [PlacedInterleaved.withCapacity] at hd
      rw [h0, Nat.zero_mul, if_pos rfl] at hd
      have := Nat.le_of_dvd (by simp [danglingAddr]) hd
      simp only [danglingAddr] at this
      omega
    · exact hst hd

/-- C91 is violated by every new `VectorBuffer`: `iter`, `iter_mut` and `sort_by` of a view of it panic for
    every `T` of alignment greater than 1, instead of giving no points as `into_iter` does. -/
theorem C91_empty_violated (l : PointLayout) (t : Pod) (ht : Pod.Valid t) (hl : t.size = l.size)
    (hs : 0 < t.size) (h1 : 1 < t.align) :
    PointView.allRefs (PlacedInterleaved.newFromLayout l) t = .error .panic ∧
    PointView.iterByValue (PlacedInterleaved.newFromLayout l) l [.next] = .ok [none] := by
  obtain ⟨rs, _, _, _, h⟩ := C91_history_partial l t ht hl hs h1 [] (by simp) _ rfl
  exact ⟨h (by simp), rfl⟩

/-- The same for every attribute of a new `HashMapBuffer`. -/
theorem C91_empty_columns_violated (l : PointLayout) (d : AttrDef) (hd : d ∈ l.attributes.map Member.definition)
    (t : Pod) (ht : Pod.Valid t) (hl : t.size = d.size) (hs : 0 < t.size) (h1 : 1 < t.align) :
    AttributeView.allRefs (PlacedHashMap.newFromLayout l) t d = .error .panic := by
  obtain ⟨xs, h2, _, _⟩ := C91_columns (PlacedHashMap.newFromLayout l)
    (by simp [HashMapConsistent, PlacedHashMap.newFromLayout, HashMapBuffer.newFromLayout]) d hd (by omega)
  rw [← hl] at h2
  rw [(C91_attributes_partial _ t ht hs d _ xs h2).2, if_neg]
  intro hdv
  have := Nat.le_of_dvd (by simp [PlacedHashMap.newFromLayout, danglingAddr]) hdv
  simp only [PlacedHashMap.newFromLayout, danglingAddr] at this
  omega

/-- Types of alignment 1 (`repr(C, packed)`) have references in every buffer, empty ones included. -/
theorem C91_packed {β : Type} [BorrowedBuffer β] [PlacedPoints β] (b : β) (t : Pod) (ht : Pod.Valid t)
    (h1 : t.align = 1) (hs : 0 < t.size) (addr : Nat) (rs : List Bytes) (h : PointsLie b t.size addr rs) :
    PointView.allRefs b t = .ok (references addr t.size rs) := by
  rw [(C91_points_partial b t ht hs addr rs h).2, if_pos (by rw [h1]; exact Nat.one_dvd _)]

/-- Memory the caller provides may lie anywhere: a view by reference of misaligned external memory panics
    although the bytes are those of points. -/
theorem C91_external_violated : ∃ (l : PointLayout) (t : Pod) (bytes : Bytes) (b : ExternalMemoryBuffer),
    Pod.Valid t ∧ t.size = l.size ∧ ExternalMemoryBuffer.new bytes l = .ok b ∧ len b = 1 ∧
    (∃ r, PointView.get b l 0 = .ok r) ∧
    PointView.refAt (⟨b, 4097⟩ : PlacedInterleaved) t 0 = .error .panic ∧
    PointView.allRefs (⟨b, 4097⟩ : PlacedInterleaved) t = .error .panic :=
  ⟨exLayout, ⟨6, 2⟩, List.replicate 6 5, ⟨List.replicate 6 5, exLayout, 1⟩, ⟨by decide, by decide⟩, by decide,
    by decide, by decide, ⟨_, rfl⟩, by decide, by decide⟩

/-! ## Examples -/

/-- Two points, the second one through a slice, and the buffer after `clear`. -/
example :
    (do let p ← runMemCalls [.push (List.replicate 6 7 ++ List.replicate 6 8) 4096] (.newFromLayout exLayout)
        PointView.allRefs p ⟨6, 2⟩) = .ok [⟨4096, List.replicate 6 7⟩, ⟨4102, List.replicate 6 8⟩] ∧
    (do let p ← runMemCalls [.push (List.replicate 6 7 ++ List.replicate 6 8) 4096] (.newFromLayout exLayout)
        PointView.allRefs (⟨p, ⟨1, 2⟩⟩ : BufferSlice PlacedInterleaved) ⟨6, 2⟩) =
      .ok [⟨4102, List.replicate 6 8⟩] ∧
    (do let p ← runMemCalls [.push (List.replicate 6 7) 4096, .clear] (.newFromLayout exLayout)
        PointView.allRefs p ⟨6, 2⟩) = .ok [] ∧
    (do let p ← runMemCalls [.clear] (.newFromLayout exLayout)
        PointView.allRefs p ⟨6, 2⟩) = .error .panic := by decide

/-- The hypotheses of the theorems above hold for these. -/
example : Pod.Valid ⟨6, 2⟩ ∧ (Pod.mk 6 2).size = exLayout.size ∧
    MemCall.alignedFor ⟨6, 2⟩ (.push (List.replicate 6 7) 4096) ∧
    MemCall.stores (.push (List.replicate 6 7) 4096) :=
  ⟨⟨by decide, by decide⟩, by decide, by show (2 ∣ 4096); decide, by show _ ≠ []; decide⟩

end Pasture.Props
