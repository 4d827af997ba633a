import Verif.Lemmas.RawConvert
import Verif.Props.Slices

/-!
# Properties of `BufferLayoutConverter`: C27, C28, and of `RawPointConverter`: C29

Targets are `VectorBuffer` (and `ExternalMemoryBuffer`, which shares its model) and `HashMapBuffer`; sources
are any buffers whose memory can be borrowed, which includes slices.
-/

namespace Pasture.Props

open Spec BorrowedBuffer

theorem showsPoints_unique {β : Type} [BorrowedBuffer β] {b : β} {l : PointLayout} {ps qs : List Point}
    (h : ShowsPoints b l ps) (h' : ShowsPoints b l qs) : ps = qs := by
  have hlen : ps.length = qs.length := by rw [← h.len_eq, h'.len_eq]
  apply List.ext_getElem hlen
  intro i h1 h2
  obtain ⟨r, e1, _, e2⟩ := h.getPoint_ok i _ (zeros l.size) (List.getElem?_eq_getElem h1) (by simp [zeros])
  obtain ⟨r', e1', _, e2'⟩ := h'.getPoint_ok i _ (zeros l.size) (List.getElem?_eq_getElem h2) (by simp [zeros])
  rw [e1] at e1'
  rw [← e2, ← e2', Except.ok.inj e1']

theorem calls_realize {ls lt : PointLayout} : ∀ {calls : List MappingCall}, (∀ c ∈ calls, c.sound) →
    ∀ {conv₀ conv : BufferLayoutConverter} {plan : Plan}, Realizes conv₀ plan → conv₀.fromLayout = ls →
    conv₀.toLayout = lt → applyCalls conv₀ calls = .ok conv →
    conv.fromLayout = ls ∧ conv.toLayout = lt ∧ Realizes conv (calls.foldl Plan.update plan) := by
  intro calls
  induction calls with
  | nil =>
    intro _ conv₀ conv plan hr h1 h2 hc
    cases hc
    exact ⟨h1, h2, hr⟩
  | cons c calls ih =>
    intro hs conv₀ conv plan hr h1 h2 hc
    obtain ⟨hno, hyes⟩ := applyCall_spec hr (hs c (by simp))
    unfold applyCalls at hc
    rw [List.foldlM_cons] at hc
    by_cases ha : c.allowed conv₀.fromLayout conv₀.toLayout
    · obtain ⟨conv₁, e, e1, e2, hr1⟩ := hyes ha
      rw [e] at hc
      exact ih (fun c hc => hs c (by simp [hc])) hr1 (e1.trans h1) (e2.trans h2) hc
    · rw [hno ha] at hc
      cases hc

theorem built_realizes {ls lt : PointLayout} (ht : Solid lt) {calls : List MappingCall}
    (hs : ∀ c ∈ calls, c.sound) {conv : BufferLayoutConverter} (h : Built ls lt calls conv) :
    conv.fromLayout = ls ∧ conv.toLayout = lt ∧ Realizes conv (planOf ls calls) := by
  obtain ⟨conv₀, h0, hc⟩ := h
  have : conv₀.fromLayout = ls ∧ conv₀.toLayout = lt ∧ Realizes conv₀ (defaultPlan ls) := by
    rcases h0 with h0 | h0
    · by_cases hall : ∀ t ∈ lt.attributes, (defaultPlan ls t.definition).isSome
      · obtain ⟨c, e, h⟩ := realizes_forLayouts (source := ls) ht hall
        rw [e] at h0; cases h0; exact h
      · rw [forLayouts_panics hall] at h0; cases h0
    · by_cases hall : ∀ t ∈ lt.attributes, named ls t.name → (defaultPlan ls t.definition).isSome
      · obtain ⟨c, e, h⟩ := realizes_withDefault (source := ls) ht hall
        rw [e] at h0; cases h0; exact h
      · rw [withDefault_panics hall] at h0; cases h0
  exact calls_realize hs this.2.2 this.1 this.2.1 hc

/-! ## C27 -/

section
variable {σ : Type} [BorrowedBuffer σ] [AsMemory σ]

/-- C27 for `convert_into_range` into interleaved memory: the points in the target range have the values the
    plan says, made from the points of the source range; everything else in the target is as before. -/
theorem C27_into_range_interleaved (source : σ) (ls lt : PointLayout) (hs : Solid ls) (ht : Solid lt)
    (ps : List Point) (h : SourceShows source ls ps) (calls : List MappingCall) (hsound : ∀ c ∈ calls, c.sound)
    (conv : BufferLayoutConverter) (hconv : Built ls lt calls conv)
    (b : VectorBuffer) (hb : VectorConsistent b) (qs : List Point) (hq : ShowsPoints b lt qs)
    (sr tr : Rng) (h1 : sr.start ≤ sr.stop) (h2 : tr.start ≤ tr.stop) (h3 : sr.len = tr.len)
    (h4 : sr.stop ≤ ps.length) (h5 : tr.stop ≤ qs.length) :
    ∃ b', conv.convertIntoRange source sr b tr = .ok b' ∧ VectorConsistent b' ∧
      ShowsPoints b' lt ((planOf ls calls).convert ps sr qs tr) := by
  obtain ⟨rfl, rfl, hr⟩ := built_realizes ht hsound hconv
  have hbl : b.layout = conv.toLayout := hq.layout_eq
  have hall := Interleaved.records_allLen hb
  have e := Interleaved.ofRecords_records hb
  rw [hbl] at hall e
  have hsh := interleaved_shows_points ht hall
  rw [e] at hsh
  have hqs := showsPoints_unique hq hsh
  subst hqs
  obtain ⟨rs', g1, g2, g3⟩ := intoRange_vector h h4 h3 hr hs ht h1 h2 hall (by simpa using h5)
  rw [e] at g1
  refine ⟨_, g1, g2.flatten_length, ?_⟩
  rw [← g3]
  exact interleaved_shows_points ht g2

/-- C27 for `convert_into_range` into columnar memory. -/
theorem C27_into_range_columnar (source : σ) (ls lt : PointLayout) (hs : Solid ls) (ht : Solid lt)
    (ps : List Point) (h : SourceShows source ls ps) (calls : List MappingCall) (hsound : ∀ c ∈ calls, c.sound)
    (conv : BufferLayoutConverter) (hconv : Built ls lt calls conv)
    (b : HashMapBuffer) (hb : HashMapConsistent b) (qs : List Point) (hq : ShowsPoints b lt qs)
    (sr tr : Rng) (h1 : sr.start ≤ sr.stop) (h2 : tr.start ≤ tr.stop) (h3 : sr.len = tr.len)
    (h4 : sr.stop ≤ ps.length) (h5 : tr.stop ≤ qs.length) :
    ∃ b', conv.convertIntoRange source sr b tr = .ok b' ∧ HashMapConsistent b' ∧
      ShowsPoints b' lt ((planOf ls calls).convert ps sr qs tr) := by
  obtain ⟨rfl, rfl, hr⟩ := built_realizes ht hsound hconv
  have hbl : b.layout = conv.toLayout := hq.layout_eq
  obtain ⟨rs, hall, _, e⟩ := HashMapBuffer.exists_records (hbl ▸ ht) hb
  rw [hbl] at hall e
  have hsh := HashMapBuffer.shows_points ht hall
  rw [← e] at hsh
  have hqs := showsPoints_unique hq hsh
  subst hqs
  obtain ⟨rs', g1, g2, g3⟩ := intoRange_columnar h h4 h3 hr hs ht h1 h2 hall (by simpa using h5)
  rw [← e] at g1
  refine ⟨_, g1, HashMapBuffer.ofRecords_inv ht g2, ?_⟩
  rw [← g3]
  exact HashMapBuffer.shows_points ht g2

/-- Converting a whole source into a fresh target of zeros. -/
theorem convert_fresh (plan : Plan) (ps : List Point) (z : Point) :
    plan.convert ps ⟨0, ps.length⟩ (List.replicate ps.length z) ⟨0, ps.length⟩ = ps.map fun p => plan.apply p z := by
  unfold Plan.convert
  apply List.ext_getElem?
  intro j
  simp only [List.getElem?_mapIdx, List.getElem?_map, List.getElem?_replicate]
  by_cases hj : j < ps.length
  · simp [hj]
  · simp [hj]

/-- C27 for `convert` with a `VectorBuffer` as target: attributes without a rule are zero. -/
theorem C27_convert_interleaved (source : σ) (ls lt : PointLayout) (hs : Solid ls) (ht : Solid lt)
    (ps : List Point) (h : SourceShows source ls ps) (calls : List MappingCall) (hsound : ∀ c ∈ calls, c.sound)
    (conv : BufferLayoutConverter) (hconv : Built ls lt calls conv) :
    ∃ b', conv.convert VectorBuffer source = .ok b' ∧ VectorConsistent b' ∧
      ShowsPoints b' lt (ps.map fun p => (planOf ls calls).apply p (zeroPoint lt)) := by
  obtain ⟨e1, e2, _⟩ := built_realizes ht hsound hconv
  have hz : AllLen lt.size (List.replicate ps.length (List.replicate lt.size (0 : Byte))) := by
    intro r hr; rw [List.eq_of_mem_replicate hr]; simp
  have hres := interleaved_shows_points ht hz
  have hmake : OwningBuffer.resize (MakeBufferFromLayout.newFromLayout lt : VectorBuffer) (len source) =
      Interleaved.ofRecords lt (List.replicate ps.length (List.replicate lt.size (0 : Byte))) := by
    rw [h.points.len_eq]
    have := resize_records (β := VectorBuffer) ht (AllLen.nil (sz := lt.size)) ps.length
    rw [show resized ([] : List Bytes) ps.length (List.replicate lt.size 0) =
      List.replicate ps.length (List.replicate lt.size 0) by simp [resized]] at this
    exact this
  have hcons : VectorConsistent
      (Interleaved.ofRecords lt (List.replicate ps.length (List.replicate lt.size (0 : Byte)))) :=
    hz.flatten_length
  rw [List.map_replicate, pointOf_zeros ht] at hres
  rw [← hmake] at hres hcons
  obtain ⟨b', g1, g2, g3⟩ := C27_into_range_interleaved source ls lt hs ht ps h calls hsound conv hconv _
    hcons _ hres ⟨0, ps.length⟩ ⟨0, ps.length⟩ (Nat.zero_le _) (Nat.zero_le _) rfl (Nat.le_refl _) (by simp)
  rw [convert_fresh] at g3
  refine ⟨b', ?_, g2, g3⟩
  unfold BufferLayoutConverter.convert BufferLayoutConverter.convertInto
  rw [e2, h.points.len_eq]
  rw [h.points.len_eq] at g1
  exact g1

/-- C27 for `convert` with a `HashMapBuffer` as target. -/
theorem C27_convert_columnar (source : σ) (ls lt : PointLayout) (hs : Solid ls) (ht : Solid lt)
    (ps : List Point) (h : SourceShows source ls ps) (calls : List MappingCall) (hsound : ∀ c ∈ calls, c.sound)
    (conv : BufferLayoutConverter) (hconv : Built ls lt calls conv) :
    ∃ b', conv.convert HashMapBuffer source = .ok b' ∧ HashMapConsistent b' ∧
      ShowsPoints b' lt (ps.map fun p => (planOf ls calls).apply p (zeroPoint lt)) := by
  obtain ⟨e1, e2, _⟩ := built_realizes ht hsound hconv
  have hz : AllLen lt.size (List.replicate ps.length (List.replicate lt.size (0 : Byte))) := by
    intro r hr; rw [List.eq_of_mem_replicate hr]; simp
  have hres := HashMapBuffer.shows_points ht hz
  have hmake : OwningBuffer.resize (MakeBufferFromLayout.newFromLayout lt : HashMapBuffer) (len source) =
      HashMapBuffer.ofRecords lt (List.replicate ps.length (List.replicate lt.size (0 : Byte))) := by
    rw [h.points.len_eq]
    have := resize_records (β := HashMapBuffer) ht (AllLen.nil (sz := lt.size)) ps.length
    rw [show resized ([] : List Bytes) ps.length (List.replicate lt.size 0) =
      List.replicate ps.length (List.replicate lt.size 0) by simp [resized]] at this
    exact this
  have hcons : HashMapConsistent
      (HashMapBuffer.ofRecords lt (List.replicate ps.length (List.replicate lt.size (0 : Byte)))) :=
    HashMapBuffer.ofRecords_inv ht hz
  rw [List.map_replicate, pointOf_zeros ht] at hres
  rw [← hmake] at hres hcons
  obtain ⟨b', g1, g2, g3⟩ := C27_into_range_columnar source ls lt hs ht ps h calls hsound conv hconv _
    hcons _ hres ⟨0, ps.length⟩ ⟨0, ps.length⟩ (Nat.zero_le _) (Nat.zero_le _) rfl (Nat.le_refl _) (by simp)
  rw [convert_fresh] at g3
  refine ⟨b', ?_, g2, g3⟩
  unfold BufferLayoutConverter.convert BufferLayoutConverter.convertInto
  rw [e2, h.points.len_eq]
  rw [h.points.len_eq] at g1
  exact g1

/-- Wrong layouts, ranges of different lengths and ranges past the end are rejected. -/
theorem C27_rejects {τ : Type} [BorrowedMutBuffer τ] [AsMemoryMut τ] (source : σ) (target : τ)
    (conv : BufferLayoutConverter) (sr tr : Rng)
    (h : layout source ≠ conv.fromLayout ∨ layout target ≠ conv.toLayout ∨ sr.len ≠ tr.len ∨
      len source < sr.stop ∨ len target < tr.stop) :
    conv.convertIntoRange source sr target tr = .error .panic := by
  unfold BufferLayoutConverter.convertIntoRange
  by_cases h1 : layout source = conv.fromLayout
  case neg => rw [assertThat_false (decide_eq_false h1)]; rfl
  rw [assertThat_true (decide_eq_true h1)]
  simp only [bind, Except.bind]
  by_cases h2 : layout target = conv.toLayout
  case neg => rw [assertThat_false (decide_eq_false h2)]
  rw [assertThat_true (decide_eq_true h2)]
  simp only
  by_cases h3 : sr.len = tr.len
  case neg => rw [assertThat_false (decide_eq_false h3)]
  rw [assertThat_true (decide_eq_true h3)]
  simp only
  by_cases h4 : sr.stop ≤ len source
  case neg => rw [assertThat_false (decide_eq_false h4)]
  rw [assertThat_true (decide_eq_true h4)]
  simp only
  have h5 : ¬ tr.stop ≤ len target := by
    rcases h with h | h | h | h | h
    · exact absurd h1 h
    · exact absurd h2 h
    · exact absurd h3 h
    · omega
    · omega
  rw [assertThat_false (decide_eq_false h5)]

end

/-- The sources C27 speaks about: interleaved buffers, -/
theorem vector_source (b : VectorBuffer) (hl : Solid b.layout) (hb : VectorConsistent b) :
    ∃ ps, SourceShows b b.layout ps := by
  obtain ⟨rs, h1, h2⟩ := vector_shows b hb
  have hr := interleaved_shows_records hl h1
  rw [← h2] at hr
  exact ⟨_, hr.points, rs, hr, rfl⟩

/-- columnar buffers, -/
theorem hashmap_source (b : HashMapBuffer) (hl : Solid b.layout) (hb : HashMapConsistent b) :
    ∃ ps, SourceShows b b.layout ps := by
  obtain ⟨rs, h1, h2⟩ := hashmap_shows b hl hb
  have hr := HashMapBuffer.shows_columns hl h1
  rw [← h2] at hr
  exact ⟨_, hr.points, hr⟩

/-- A generic slice is no source: its memory cannot be borrowed, so the conversion panics. -/
theorem C27_generic_slice_panics {β : Type} [BorrowedBuffer β] (source : BufferSlice β) (target : VectorBuffer)
    (conv : BufferLayoutConverter) (hm : conv.mappings ≠ []) (sr tr : Rng) :
    conv.convertIntoRange source sr target tr = .error .panic := by
  by_cases h : layout source ≠ conv.fromLayout ∨ layout target ≠ conv.toLayout ∨ sr.len ≠ tr.len ∨
      len source < sr.stop ∨ len target < tr.stop
  · exact C27_rejects source target conv sr tr h
  · simp only [not_or, Decidable.not_not, Nat.not_lt] at h
    unfold BufferLayoutConverter.convertIntoRange
    rw [assertThat_true (decide_eq_true h.1)]
    simp only [bind, Except.bind]
    rw [assertThat_true (decide_eq_true h.2.1)]
    simp only
    rw [assertThat_true (decide_eq_true h.2.2.1)]
    simp only
    rw [assertThat_true (decide_eq_true h.2.2.2.1)]
    simp only
    rw [assertThat_true (decide_eq_true h.2.2.2.2)]
    simp only
    cases hmax : (conv.mappings.map AttributeMapping.requiredBufferSize).max? with
    | none =>
      rw [List.max?_eq_none_iff] at hmax
      exact absurd (List.map_eq_nil_iff.1 hmax) hm
    | some n => rfl

/-! ## C28 -/

/-- `for_layouts` accepts exactly the layouts where every target attribute has a source attribute of the same
    name that can be converted. -/
theorem C28_for_layouts (ls lt : PointLayout) (ht : Solid lt) :
    ((∃ conv, BufferLayoutConverter.forLayouts ls lt = .ok conv) ↔
      ∀ t ∈ lt.attributes, (defaultPlan ls t.definition).isSome) ∧
    ((¬ ∀ t ∈ lt.attributes, (defaultPlan ls t.definition).isSome) →
      BufferLayoutConverter.forLayouts ls lt = .error .panic) := by
  refine ⟨⟨fun ⟨conv, h⟩ => ?_, fun h => ?_⟩, forLayouts_panics⟩
  · by_contra hc
    rw [forLayouts_panics hc] at h
    cases h
  · obtain ⟨c, hc, _⟩ := realizes_forLayouts (source := ls) ht h
    exact ⟨c, hc⟩

/-- `for_layouts_with_default` only asks this of the target attributes whose name the source has. -/
theorem C28_with_default (ls lt : PointLayout) (ht : Solid lt) :
    ((∃ conv, BufferLayoutConverter.forLayoutsWithDefault ls lt = .ok conv) ↔
      ∀ t ∈ lt.attributes, named ls t.name → (defaultPlan ls t.definition).isSome) ∧
    ((¬ ∀ t ∈ lt.attributes, named ls t.name → (defaultPlan ls t.definition).isSome) →
      BufferLayoutConverter.forLayoutsWithDefault ls lt = .error .panic) := by
  refine ⟨⟨fun ⟨conv, h⟩ => ?_, fun h => ?_⟩, withDefault_panics⟩
  · by_contra hc
    rw [withDefault_panics hc] at h
    cases h
  · obtain ⟨c, hc, _⟩ := realizes_withDefault (source := ls) ht h
    exact ⟨c, hc⟩

/-- A further call is accepted exactly if it is allowed, whatever calls came before; otherwise it panics. -/
theorem C28_call_accepted (ls lt : PointLayout) (ht : Solid lt) (calls : List MappingCall)
    (hsound : ∀ c ∈ calls, c.sound) (conv : BufferLayoutConverter) (hconv : Built ls lt calls conv)
    (c : MappingCall) (hc : c.sound) :
    (c.allowed ls lt → ∃ conv', applyCall conv c = .ok conv' ∧ Built ls lt (calls ++ [c]) conv') ∧
    (¬ c.allowed ls lt → applyCall conv c = .error .panic) := by
  obtain ⟨rfl, rfl, hr⟩ := built_realizes ht hsound hconv
  obtain ⟨h1, h2⟩ := applyCall_spec hr hc
  refine ⟨fun ha => ?_, h1⟩
  obtain ⟨conv', e, _⟩ := h2 ha
  refine ⟨conv', e, ?_⟩
  obtain ⟨conv₀, h0, hcalls⟩ := hconv
  refine ⟨conv₀, h0, ?_⟩
  unfold applyCalls at hcalls ⊢
  rw [List.foldlM_append, hcalls]
  show applyCall conv c >>= pure = _
  rw [e]
  rfl

/-- The value a converted point has for an attribute. -/
theorem apply_get (plan : Plan) (s t : Point) (d : AttrDef) :
    (plan.apply s t).get d = (t.get d).map fun old =>
      match plan d with
      | some r => match s.get r.source with
        | some v => r.value v
        | none => old
      | none => old := by
  unfold Plan.apply Point.get
  induction t with
  | nil => rfl
  | cons kv t ih =>
    obtain ⟨k, x⟩ := kv
    simp only [List.map_cons, List.lookup_cons]
    by_cases h : d = k
    · subst h
      simp only [beq_self_eq_true]
      rfl
    · have : (d == k) = false := by simpa using h
      simp only [this]
      exact ih

/-- C28: after a further call for the target attribute `c.target`, conversion gives that attribute the
    converted value of `c.source`, whatever calls for it came before, and gives every other attribute the
    value it would have got without the call. -/
theorem C28_custom_mapping {σ : Type} [BorrowedBuffer σ] [AsMemory σ] (source : σ) (ls lt : PointLayout)
    (hs : Solid ls) (ht : Solid lt) (ps : List Point) (h : SourceShows source ls ps)
    (calls : List MappingCall) (hsound : ∀ c ∈ calls, c.sound) (conv conv' : BufferLayoutConverter)
    (hconv : Built ls lt calls conv) (c : MappingCall) (hc : c.sound) (hc' : applyCall conv c = .ok conv') :
    ∃ b b' rule, conv.convert VectorBuffer source = .ok b ∧ conv'.convert VectorBuffer source = .ok b' ∧
      c.rule = some rule ∧ rule.source = c.source ∧
      ∀ i data p, ps[i]? = some p →
        (data.length = c.target.size → ∃ v, p.get c.source = some v ∧
          getAttribute b' c.target i data = .ok (rule.value v)) ∧
        ∀ d, d ≠ c.target → data.length = d.size → getAttribute b' d i data = getAttribute b d i data := by
  obtain ⟨ha1, ha2⟩ := C28_call_accepted ls lt ht calls hsound conv hconv c hc
  have hallow : c.allowed ls lt := by
    by_contra hn
    rw [ha2 hn] at hc'
    cases hc'
  obtain ⟨conv'', e, hb'⟩ := ha1 hallow
  rw [hc'] at e
  cases e
  have hs' : ∀ x ∈ calls ++ [c], x.sound := by
    intro x hx
    rcases List.mem_append.1 hx with hx | hx
    · exact hsound x hx
    · rw [List.mem_singleton.1 hx]; exact hc
  obtain ⟨b, g1, _, g3⟩ := C27_convert_interleaved source ls lt hs ht ps h calls hsound conv hconv
  obtain ⟨b', g1', _, g3'⟩ := C27_convert_interleaved source ls lt hs ht ps h _ hs' conv' hb'
  obtain ⟨hsrc, htgt, _, hrule⟩ := hallow
  obtain ⟨rule, hrule⟩ := Option.isSome_iff_exists.1 hrule
  have hplan : planOf ls (calls ++ [c]) = (planOf ls calls).update c := by
    unfold planOf; rw [List.foldl_append]; rfl
  have hrs : rule.source = c.source := by
    unfold MappingCall.rule at hrule
    cases hcv : conversion c.source.datatype c.target.datatype with
    | none => rw [hcv] at hrule; cases hrule
    | some f =>
      rw [hcv] at hrule
      rw [← Option.some.inj hrule]
      cases c with
      | plain _ _ => rfl
      | transformed _ _ _ _ o => cases o <;> rfl
  refine ⟨b, b', rule, g1, g1', hrule, hrs, ?_⟩
  intro i data p hp
  constructor
  · intro hd
    obtain ⟨m, hm, e⟩ := List.mem_map.1 hsrc
    obtain ⟨v, hv, _⟩ := (h.points.typed hs).1 p (List.mem_of_getElem? hp) m hm
    rw [e] at hv
    refine ⟨v, hv, ?_⟩
    rw [g3'.getAttribute_eq _ _ _ hd]
    unfold value?
    rw [List.getElem?_map, hp]
    simp only [Option.map_some, bind, Option.bind]
    rw [apply_get, hplan]
    obtain ⟨t, htm, e⟩ := List.mem_map.1 htgt
    have hz : (zeroPoint lt).get c.target = some (List.replicate t.size 0) := by
      unfold zeroPoint Point.get
      rw [lookup_map_def, ← e, find_def_mem ht htm]
      rfl
    rw [hz]
    simp only [Option.map_some, Plan.update, if_true, hrule, hrs, hv]
    rfl
  · intro d hne hd
    rw [g3'.getAttribute_eq _ _ _ hd, g3.getAttribute_eq _ _ _ hd]
    unfold value?
    rw [List.getElem?_map, List.getElem?_map, hp]
    simp only [Option.map_some, bind, Option.bind]
    rw [apply_get, apply_get, hplan]
    simp only [Plan.update, if_neg hne]

/-! ### A concrete case

Source: `a: u8, b: u16, c: u8`; target: `b: u8, z: u32, y: u8`. By default only `b` is filled; then `z` is filled
from `a` with a transformation of the source value. -/

def exTarget : PointLayout := ⟨[⟨⟨"b", .u8⟩, 0⟩, ⟨⟨"z", .u32⟩, 4⟩, ⟨⟨"y", .u8⟩, 8⟩], 12, 4⟩

def exCall : MappingCall := .transformed ⟨"a", .u8⟩ ⟨"z", .u32⟩ .u8 (fun v => v.map (· + 1)) true

def exSource : VectorBuffer := ⟨[1, 0, 2, 0, 3, 0, 4, 0, 5, 1, 6, 0], exLayout, 2⟩

theorem exTarget_solid : Solid exTarget where
  nonempty := by decide
  names := by decide
  positive := by decide
  inside := by decide
  apart := by decide

example : exCall.sound ∧ ∃ conv, Built exLayout exTarget [exCall] conv ∧
    (conv.convert VectorBuffer exSource).map (fun b => b.storage) =
      .ok [2, 0, 0, 0, 2, 0, 0, 0, 0, 0, 0, 0, 5, 0, 0, 0, 5, 0, 0, 0, 0, 0, 0, 0] ∧
    (conv.convert HashMapBuffer exSource).map (fun b => b.columns) =
      .ok [(⟨"b", .u8⟩, [2, 5]), (⟨"z", .u32⟩, [2, 0, 0, 0, 5, 0, 0, 0]), (⟨"y", .u8⟩, [0, 0])] := by
  refine ⟨fun v hv => by simpa using hv, ?_⟩
  have h : ∀ t ∈ exTarget.attributes, named exLayout t.name → (defaultPlan exLayout t.definition).isSome := by
    intro t ht _
    simp only [exTarget, List.mem_cons, List.not_mem_nil, or_false] at ht
    rcases ht with rfl | rfl | rfl
    · rfl
    all_goals next h =>
      obtain ⟨m, hm, e⟩ := h
      simp only [exLayout, List.mem_cons, List.not_mem_nil, or_false] at hm
      rcases hm with rfl | rfl | rfl <;> simp [Member.name] at e
  obtain ⟨conv₀, h0⟩ := (C28_with_default exLayout exTarget exTarget_solid).1.2 h
  have hb : Built exLayout exTarget [] conv₀ := ⟨conv₀, .inr h0, rfl⟩
  obtain ⟨conv, hc, hb'⟩ := (C28_call_accepted exLayout exTarget exTarget_solid [] (by simp) conv₀ hb exCall
    (fun v hv => by simpa using hv)).1 ⟨by decide, by decide, rfl, rfl⟩
  refine ⟨conv, hb', ?_⟩
  have e : (BufferLayoutConverter.forLayoutsWithDefault exLayout exTarget).bind (fun c => applyCall c exCall) =
      .ok conv := by rw [h0]; exact hc
  constructor
  · have : (((BufferLayoutConverter.forLayoutsWithDefault exLayout exTarget).bind fun c => applyCall c exCall).bind
        fun c => (c.convert VectorBuffer exSource).map (fun b => b.storage)) =
        .ok [2, 0, 0, 0, 2, 0, 0, 0, 0, 0, 0, 0, 5, 0, 0, 0, 5, 0, 0, 0, 0, 0, 0, 0] := by decide +kernel
    rw [e] at this
    exact this
  · have : (((BufferLayoutConverter.forLayoutsWithDefault exLayout exTarget).bind fun c => applyCall c exCall).bind
        fun c => (c.convert HashMapBuffer exSource).map (fun b => b.columns)) =
        .ok [(⟨"b", .u8⟩, [2, 5]), (⟨"z", .u32⟩, [2, 0, 0, 0, 5, 0, 0, 0]), (⟨"y", .u8⟩, [0, 0])] := by decide +kernel
    rw [e] at this
    exact this

/-! ## C29 -/

/-- What `RawPointConverter` does: it fills the attributes whose datatypes *differ* between the layouts, and leaves
    all others as they were. -/
theorem rawConvert_exact (a b : PointLayout) (ha : Solid a) (hb : Solid b)
    (hconv : ∀ m ∈ a.attributes, ∀ t ∈ b.attributes, t.name = m.name → (conversion m.datatype t.datatype).isSome) :
    ∃ cs, rawPointConverter a b = .ok cs ∧ ∀ source target : Bytes, source.length = a.size →
      target.length = b.size → ∃ target', rawPointConvert cs source target = .ok target' ∧
        target'.length = b.size ∧
        pointOf b target' = (differentTypesPlan a).apply (pointOf a source) (pointOf b target) := by
  obtain ⟨cs, h1, _⟩ := rawPoint_loop hb (r := List.replicate a.size 0) ha.names
    (fun m hm => by simpa using ha.inside m hm) hconv
  refine ⟨cs.filterMap id, by unfold rawPointConverter; rw [h1]; rfl, fun source target hs ht => ?_⟩
  obtain ⟨cs', h1', h2⟩ := rawPoint_loop hb (r := source) ha.names
    (fun m hm => by rw [hs]; exact ha.inside m hm) hconv
  rw [h1] at h1'
  cases h1'
  obtain ⟨x', e1, e2, e3⟩ := h2 target ht
  refine ⟨x', e1, e2, ?_⟩
  rw [e3]
  unfold Plan.apply
  apply List.map_congr_left
  rintro ⟨d, old⟩ _
  simp only
  congr 1
  unfold rawValue differentTypesPlan
  cases hf : a.attributes.find? (fun m => m.name = d.name) with
  | none => rfl
  | some m =>
    simp only
    by_cases hty : m.datatype = d.datatype
    · rw [if_pos hty, if_pos hty]
    · rw [if_neg hty, if_neg hty]
      cases conversion m.datatype d.datatype with
      | none => rfl
      | some f =>
        simp only [Option.map_some]
        rw [pointOf_get, find_def_mem ha (List.mem_of_find?_eq_some hf)]
        rfl

/-- C29 is false: between equal layouts the converter fills nothing at all, for any layout and any points. -/
theorem C29_violated (l : PointLayout) (hl : Solid l) :
    ∃ cs, rawPointConverter l l = .ok cs ∧ ∀ source target : Bytes, source.length = l.size →
      target.length = l.size → ∃ target', rawPointConvert cs source target = .ok target' ∧
        pointOf l target' = pointOf l target := by
  obtain ⟨cs, h1, h2⟩ := rawConvert_exact l l hl hl (by
    intro m hm t ht he
    have : t = m := List.inj_on_of_nodup_map hl.names ht hm he
    subst this
    simp [conversion])
  refine ⟨cs, h1, fun source target hs ht => ?_⟩
  obtain ⟨x, e1, _, e3⟩ := h2 source target hs ht
  refine ⟨x, e1, ?_⟩
  rw [e3]
  unfold Plan.apply
  conv => rhs; rw [← List.map_id (pointOf l target)]
  apply List.map_congr_left
  rintro ⟨d, old⟩ hd
  obtain ⟨m, hm, e⟩ := List.mem_map.1 hd
  have hmd : m.definition = d := (Prod.mk.inj e).1
  have : differentTypesPlan l d = none := by
    unfold differentTypesPlan
    cases hf : l.attributes.find? (fun m => m.name = d.name) with
    | none => rfl
    | some m' =>
      have hname : m'.name = m.name := by
        rw [← hmd] at hf
        have h := List.find?_some hf
        exact of_decide_eq_true h
      have : m' = m := List.inj_on_of_nodup_map hl.names (List.mem_of_find?_eq_some hf) hm hname
      simp only
      rw [if_pos (by rw [this, ← hmd]; rfl)]
  simp only [this]
  rfl

/-- What remains of C29: target attributes whose source attribute has another datatype get the converted value, and
    attributes the source does not have keep theirs. Missing: attributes with the same datatype. -/
theorem C29_partial (a b : PointLayout) (ha : Solid a) (hb : Solid b)
    (hconv : ∀ m ∈ a.attributes, ∀ t ∈ b.attributes, t.name = m.name → (conversion m.datatype t.datatype).isSome) :
    ∃ cs, rawPointConverter a b = .ok cs ∧ ∀ source target : Bytes, source.length = a.size →
      target.length = b.size → ∃ target', rawPointConvert cs source target = .ok target' ∧
        target'.length = b.size ∧
        (∀ m ∈ a.attributes, ∀ t ∈ b.attributes, t.name = m.name → m.datatype ≠ t.datatype →
          ∃ f, conversion m.datatype t.datatype = some f ∧
            window target' t.offset t.size = f (window source m.offset m.size)) ∧
        (∀ t ∈ b.attributes, ¬ named a t.name →
          window target' t.offset t.size = window target t.offset t.size) := by
  obtain ⟨cs, h1, h2⟩ := rawConvert_exact a b ha hb hconv
  refine ⟨cs, h1, fun source target hs ht => ?_⟩
  obtain ⟨x, e1, e2, e3⟩ := h2 source target hs ht
  have hval : ∀ t ∈ b.attributes, window x t.offset t.size =
      match differentTypesPlan a t.definition with
      | some r => match (pointOf a source).get r.source with
        | some v => r.value v
        | none => window target t.offset t.size
      | none => window target t.offset t.size := by
    intro t htm
    have := congrArg (fun p : Point => p.get t.definition) e3
    simp only [apply_get, pointOf_get, find_def_mem hb htm, Option.map_some] at this
    rw [Option.some.inj this]
    cases differentTypesPlan a t.definition with
    | none => rfl
    | some r => simp only [pointOf_get]
  refine ⟨x, e1, e2, ?_, ?_⟩
  · intro m hm t htm hname hty
    obtain ⟨f, hf⟩ := Option.isSome_iff_exists.1 (hconv m hm t htm hname)
    refine ⟨f, hf, ?_⟩
    rw [hval t htm]
    have hfind : a.attributes.find? (fun x => x.name = t.definition.name) = some m := by
      cases hf : a.attributes.find? (fun x => x.name = t.definition.name) with
      | none =>
        rw [List.find?_eq_none] at hf
        exact absurd (decide_eq_true hname.symm) (hf m hm)
      | some m' =>
        have h3 : m'.name = t.name := of_decide_eq_true (List.find?_some hf :)
        rw [List.inj_on_of_nodup_map ha.names (List.mem_of_find?_eq_some hf) hm (h3.trans hname)]
    unfold differentTypesPlan
    rw [hfind]
    simp only
    rw [if_neg (show ¬ m.datatype = t.definition.datatype from hty),
      show conversion m.datatype t.definition.datatype = some f from hf]
    simp only [Option.map_some]
    rw [pointOf_get, find_def_mem ha hm]
    rfl
  · intro t htm hno
    rw [hval t htm]
    unfold differentTypesPlan
    have : a.attributes.find? (fun x => x.name = t.definition.name) = none := by
      rw [List.find?_eq_none]
      intro m hm he
      exact hno ⟨m, hm, of_decide_eq_true he⟩
    rw [this]

/-- Between the two example layouts, `b` is converted from `u16` to `u8` and nothing else happens. -/
example : (∀ m ∈ exLayout.attributes, ∀ t ∈ exTarget.attributes, t.name = m.name →
      (conversion m.datatype t.datatype).isSome) ∧
    (rawPointConverter exLayout exTarget).bind (fun cs => rawPointConvert cs [1, 0, 2, 0, 3, 0] (List.replicate 12 9)) =
      .ok [2, 9, 9, 9, 9, 9, 9, 9, 9, 9, 9, 9] := by
  refine ⟨?_, by decide +kernel⟩
  intro m hm t ht he
  simp only [exTarget, exLayout, List.mem_cons, List.not_mem_nil, or_false] at hm ht
  rcases hm with rfl | rfl | rfl <;> rcases ht with rfl | rfl | rfl <;> rfl

end Pasture.Props
