import Verif.Lemmas.BufferConvert
import Verif.Spec.ConvertObserve

/-! # `convert_into_range` and the plan of a converter -/

namespace Pasture

open Spec BorrowedBuffer

theorem max_required {ms : List AttributeMapping} {n : Nat}
    (h : (ms.map AttributeMapping.requiredBufferSize).max? = some n) {m : AttributeMapping} (hm : m ∈ ms) :
    m.requiredBufferSize ≤ n :=
  (List.max?_le_iff h).1 (Nat.le_refl n) _ (List.mem_map_of_mem hm)

section
variable {σ : Type} [BorrowedBuffer σ] [AsMemory σ] {source : σ} {conv : BufferLayoutConverter}
  {ps : List Point} (h : SourceShows source conv.fromLayout ps) {a b c d : Nat} (hb : b ≤ ps.length)
  (hn : b - a = d - c)
include h hb hn

theorem asserts_ok {τ : Type} [BorrowedMutBuffer τ] [AsMemoryMut τ] {target : τ}
    (hl : layout target = conv.toLayout) (hlen : d ≤ len target) :
    conv.convertIntoRange source ⟨a, b⟩ target ⟨c, d⟩ =
      match (conv.mappings.map AttributeMapping.requiredBufferSize).max? with
      | some maxSize => conv.dispatch source ⟨a, b⟩ target ⟨c, d⟩ maxSize
      | none => .ok target := by
  unfold BufferLayoutConverter.convertIntoRange
  rw [assertThat_true (decide_eq_true h.points.layout_eq)]
  simp only [bind, Except.bind]
  rw [assertThat_true (decide_eq_true hl)]
  simp only
  rw [assertThat_true (decide_eq_true (show Rng.len ⟨a, b⟩ = Rng.len ⟨c, d⟩ from hn))]
  simp only
  rw [assertThat_true (decide_eq_true (by rw [h.points.len_eq]; exact hb))]
  simp only
  rw [assertThat_true (decide_eq_true hlen)]
  rfl

variable {plan : Plan} (hc : Realizes conv plan) (hs : Solid conv.fromLayout) (ht : Solid conv.toLayout)
  (hab : a ≤ b) (hcd : c ≤ d) {rs : List Bytes} (hr : AllLen conv.toLayout.size rs) (hdr : d ≤ rs.length)
include hc hs ht hab hcd hr hdr

omit hdr in
theorem loop_plan {τ : Type} (rep : List Bytes → τ) (body : τ → AttributeMapping → Out τ)
    (hbody : ∀ m ∈ conv.mappings, ∀ xs, AllLen conv.toLayout.size xs → xs.length = rs.length →
      body (rep xs) m = .ok (rep (fillAttr m.target c (stored ps m (planFn plan m) a (b - a)) xs))) :
    ∃ rs', forLoop conv.mappings (rep rs) body = .ok (rep rs') ∧ AllLen conv.toLayout.size rs' ∧
      rs'.map (pointOf conv.toLayout) =
        plan.convert ps ⟨a, b⟩ (rs.map (pointOf conv.toLayout)) ⟨c, d⟩ := by
  have hp : HasValues conv.fromLayout ps := (h.points.typed hs).1
  obtain ⟨h1, h2, _⟩ := mappings_loop (rep := rep)
    (size := conv.toLayout.size) (count := rs.length) (body := body)
    (F := fun m rs => fillAttr m.target c (stored ps m (planFn plan m) a (b - a)) rs)
    (ms := conv.mappings) (by
      intro m hm qs hq hql
      refine ⟨hbody m hm qs hq hql, fillAttr_allLen hq (ht.inside _ (hc.targets m hm)) ?_, ?_⟩
      · exact stored_allLen hp (hc.does hm) (hc.sources m hm)
      · rw [fillAttr_length, hql]) hr rfl
  exact ⟨_, h1, h2, fillAll_points hc ht hp hab hb hn hcd hr⟩

theorem intoRange_records {τ : Type} [inst : InterleavedBufferMut τ] [AsMemoryMut τ]
    (hno : AsMemoryMut.asColumnarMut (β := τ) = none) (hyes : AsMemoryMut.asInterleavedMut (β := τ) = some inst)
    {rep : List Bytes → τ} (hrep : HoldsMemory conv.toLayout rs.length rep)
    (hlay : layout (rep rs) = conv.toLayout) (hlen : d ≤ len (rep rs)) :
    ∃ rs', conv.convertIntoRange source ⟨a, b⟩ (rep rs) ⟨c, d⟩ = .ok (rep rs') ∧
        AllLen conv.toLayout.size rs' ∧
      rs'.map (pointOf conv.toLayout) =
        plan.convert ps ⟨a, b⟩ (rs.map (pointOf conv.toLayout)) ⟨c, d⟩ := by
  have hp : HasValues conv.fromLayout ps := (h.points.typed hs).1
  have loop := loop_plan h hb hn hc hs ht hab hcd hr rep
  rw [asserts_ok h hb hn hlay hlen]
  cases hmax : (conv.mappings.map AttributeMapping.requiredBufferSize).max? with
  | none =>
    have : conv.mappings = [] := by
      rw [List.max?_eq_none_iff] at hmax
      exact List.map_eq_nil_iff.1 hmax
    rw [this] at loop
    exact loop (fun b _ => .ok b) fun m hm => (by simp at hm)
  | some size =>
    simp only
    unfold BufferLayoutConverter.dispatch
    have hmem := h.memory
    rw [hno, hyes]
    cases hcol : AsMemory.asColumnar (β := σ) with
    | some _ =>
      rw [hcol] at hmem
      exact loop _ fun m hm qs hq hql => columnarToInterleaved_step hs ht hp (hc.does hm)
        (hc.sources m hm) (hc.targets m hm) hab hb hcd hn hmem (by rw [hql]; exact hrep) hq (by omega)
    | none =>
      rw [hcol] at hmem
      cases hint : AsMemory.asInterleaved (β := σ) with
      | none => rw [hint] at hmem; exact hmem.elim
      | some _ =>
        rw [hint] at hmem
        obtain ⟨xs, hx, rfl⟩ := hmem
        exact loop _ fun m hm qs hq hql => interleavedToInterleaved_step hs ht (showsRecords_allLen hx)
          (hc.does hm) (hc.sources m hm) (hc.targets m hm) hab (by simpa using hb) hcd hn
          (max_required hmax hm) hx (by rw [hql]; exact hrep) hq (by omega)

theorem intoRange_vector :
    ∃ rs', conv.convertIntoRange source ⟨a, b⟩ (Interleaved.ofRecords conv.toLayout rs) ⟨c, d⟩ =
        .ok (Interleaved.ofRecords conv.toLayout rs') ∧ AllLen conv.toLayout.size rs' ∧
      rs'.map (pointOf conv.toLayout) =
        plan.convert ps ⟨a, b⟩ (rs.map (pointOf conv.toLayout)) ⟨c, d⟩ :=
  intoRange_records h hb hn hc hs ht hab hcd hr hdr rfl rfl (holds_vector _ _) rfl hdr

theorem intoRange_columnar :
    ∃ rs', conv.convertIntoRange source ⟨a, b⟩ (HashMapBuffer.ofRecords conv.toLayout rs) ⟨c, d⟩ =
        .ok (HashMapBuffer.ofRecords conv.toLayout rs') ∧ AllLen conv.toLayout.size rs' ∧
      rs'.map (pointOf conv.toLayout) =
        plan.convert ps ⟨a, b⟩ (rs.map (pointOf conv.toLayout)) ⟨c, d⟩ := by
  have hp : HasValues conv.fromLayout ps := (h.points.typed hs).1
  have loop := loop_plan h hb hn hc hs ht hab hcd hr (HashMapBuffer.ofRecords conv.toLayout)
  rw [asserts_ok h hb hn rfl hdr]
  cases hmax : (conv.mappings.map AttributeMapping.requiredBufferSize).max? with
  | none =>
    have : conv.mappings = [] := by
      rw [List.max?_eq_none_iff] at hmax
      exact List.map_eq_nil_iff.1 hmax
    rw [this] at loop
    exact loop (fun b _ => .ok b) fun m hm => (by simp at hm)
  | some size =>
    simp only
    unfold BufferLayoutConverter.dispatch
    have hmem := h.memory
    cases hcol : AsMemory.asColumnar (β := σ) with
    | some inst =>
      rw [hcol] at hmem
      exact loop _ fun m hm qs hq hql => columnarToColumnar_step hs ht hp (hc.does hm)
        (hc.sources m hm) (hc.targets m hm) hab hb hcd hn hmem hq (by omega)
    | none =>
      rw [hcol] at hmem
      cases hint : AsMemory.asInterleaved (β := σ) with
      | none => rw [hint] at hmem; exact hmem.elim
      | some inst =>
        rw [hint] at hmem
        obtain ⟨xs, hx, rfl⟩ := hmem
        exact loop _ fun m hm qs hq hql => interleavedToColumnar_step hs ht (showsRecords_allLen hx)
          (hc.does hm) (hc.sources m hm) (hc.targets m hm) hab (by simpa using hb) hcd hn
          (max_required hmax hm) hx hq (by omega)

end

/-! ### building converters -/

theorem mem_replaceOrPush {d : AttrDef} {new : AttributeMapping} :
    ∀ {ms : List AttributeMapping}, (ms.map fun m => m.target.definition).Nodup → ∀ m,
    (m ∈ BufferLayoutConverter.replaceOrPush d new ms ↔ m = new ∨ m ∈ ms ∧ m.target.definition ≠ d) := by
  intro ms
  induction ms with
  | nil => intro _ m; simp [BufferLayoutConverter.replaceOrPush]
  | cons x ms ih =>
    intro hn m
    rw [List.map_cons, List.nodup_cons] at hn
    unfold BufferLayoutConverter.replaceOrPush
    by_cases h : x.target.definition = d
    · rw [if_pos h, List.mem_cons, List.mem_cons]
      constructor
      · rintro (e | hm)
        · exact .inl e
        · refine .inr ⟨.inr hm, fun he => hn.1 ?_⟩
          rw [h, ← he]
          exact List.mem_map_of_mem hm
      · rintro (e | ⟨e | hm, hne⟩)
        · exact .inl e
        · rw [e] at hne; exact absurd h hne
        · exact .inr hm
    · rw [if_neg h, List.mem_cons, List.mem_cons, ih hn.2]
      constructor
      · rintro (e | e | ⟨hm, hne⟩)
        · exact .inr ⟨.inl e, by rw [e]; exact h⟩
        · exact .inl e
        · exact .inr ⟨.inr hm, hne⟩
      · rintro (e | ⟨e | hm, hne⟩)
        · exact .inr (.inl e)
        · exact .inl e
        · exact .inr (.inr ⟨hm, hne⟩)

theorem nodup_replaceOrPush {d : AttrDef} {new : AttributeMapping} (hnew : new.target.definition = d) :
    ∀ {ms : List AttributeMapping}, (ms.map fun m => m.target.definition).Nodup →
    ((BufferLayoutConverter.replaceOrPush d new ms).map fun m => m.target.definition).Nodup := by
  intro ms
  induction ms with
  | nil => intro _; simp [BufferLayoutConverter.replaceOrPush]
  | cons x ms ih =>
    intro hn
    have hn' := hn
    rw [List.map_cons, List.nodup_cons] at hn'
    unfold BufferLayoutConverter.replaceOrPush
    by_cases h : x.target.definition = d
    · rw [if_pos h, List.map_cons, hnew, ← h, ← List.map_cons (f := fun m : AttributeMapping => m.target.definition)]
      exact hn
    · rw [if_neg h, List.map_cons, List.nodup_cons]
      refine ⟨?_, ih hn'.2⟩
      intro hm
      obtain ⟨m, hm, e⟩ := List.mem_map.1 hm
      rcases (mem_replaceOrPush hn'.2 m).1 hm with rfl | ⟨hm, _⟩
      · exact h (e.symm.trans hnew)
      · exact hn'.1 (List.mem_map.2 ⟨m, hm, e⟩)

theorem Realizes.update {conv : BufferLayoutConverter} {plan : Plan} (h : Realizes conv plan)
    {call : MappingCall} {new : AttributeMapping} (hs : new.source ∈ conv.fromLayout.attributes)
    (ht : new.target ∈ conv.toLayout.attributes) (e1 : new.target.definition = call.target)
    {r : Rule} (hr : call.rule = some r) (e2 : r.source = new.source.definition) (hd : Does new r.value) :
    Realizes { conv with mappings := BufferLayoutConverter.replaceOrPush call.target new conv.mappings }
      (plan.update call) := by
  constructor
  · exact nodup_replaceOrPush e1 h.nodup
  · intro m hm
    rcases (mem_replaceOrPush h.nodup m).1 hm with rfl | ⟨hm, _⟩
    · exact hs
    · exact h.sources m hm
  · intro m hm
    rcases (mem_replaceOrPush h.nodup m).1 hm with rfl | ⟨hm, _⟩
    · exact ht
    · exact h.targets m hm
  · intro m hm
    unfold Plan.update
    rcases (mem_replaceOrPush h.nodup m).1 hm with rfl | ⟨hm, hne⟩
    · rw [if_pos e1, hr]
      exact ⟨r, rfl, e2, hd⟩
    · rw [if_neg hne]
      exact h.rules m hm
  · intro d hd' hno
    unfold Plan.update
    have hnew := hno new ((mem_replaceOrPush h.nodup new).2 (.inl rfl))
    rw [if_neg (by rw [← e1]; exact fun he => hnew he.symm)]
    apply h.complete d hd'
    intro m hm he
    by_cases hmd : m.target.definition = call.target
    · exact hnew (e1.trans (hmd.symm.trans he))
    · exact hno m ((mem_replaceOrPush h.nodup m).2 (.inr ⟨hm, hmd⟩)) he

theorem getAttribute_member {l : PointLayout} {d : AttrDef} (h : d ∈ l.attributes.map Member.definition) :
    ∃ m ∈ l.attributes, m.definition = d ∧ l.getAttribute d = some m := by
  obtain ⟨m, hf⟩ := find_def_isSome h
  obtain ⟨h1, h2⟩ := find_def_some hf
  exact ⟨m, h1, h2, by rw [getAttribute_eq]; exact hf⟩

theorem getAttribute_none {l : PointLayout} {d : AttrDef} (h : d ∉ l.attributes.map Member.definition) :
    l.getAttribute d = none := by
  rw [getAttribute_eq, List.find?_eq_none]
  intro m hm he
  exact h (List.mem_map.2 ⟨m, hm, by simpa using he⟩)

/-- A call is accepted exactly if it is allowed, and then has the effect it should. -/
theorem applyCall_spec {conv : BufferLayoutConverter} {plan : Plan} (h : Realizes conv plan)
    {call : MappingCall} (hsound : call.sound) :
    (¬ call.allowed conv.fromLayout conv.toLayout → applyCall conv call = .error .panic) ∧
    (call.allowed conv.fromLayout conv.toLayout → ∃ conv', applyCall conv call = .ok conv' ∧
      conv'.fromLayout = conv.fromLayout ∧ conv'.toLayout = conv.toLayout ∧
      Realizes conv' (plan.update call)) := by
  by_cases hs : call.source ∈ conv.fromLayout.attributes.map Member.definition
  case neg =>
    refine ⟨fun _ => ?_, fun ha => absurd ha.1 hs⟩
    cases call <;> simp only [applyCall, BufferLayoutConverter.setCustomMapping,
      BufferLayoutConverter.setCustomMappingWithTransformation] <;>
      simp only [MappingCall.source] at hs <;> rw [getAttribute_none hs] <;> rfl
  obtain ⟨s, hsm, hse, hsg⟩ := getAttribute_member hs
  by_cases ht : call.target ∈ conv.toLayout.attributes.map Member.definition
  case neg =>
    refine ⟨fun _ => ?_, fun ha => absurd ha.2.1 ht⟩
    cases call <;> simp only [applyCall, BufferLayoutConverter.setCustomMapping,
      BufferLayoutConverter.setCustomMappingWithTransformation] <;>
      simp only [MappingCall.source] at hsg <;> simp only [MappingCall.target] at ht <;>
      rw [hsg, getAttribute_none ht] <;> rfl
  obtain ⟨t, htm, hte, htg⟩ := getAttribute_member ht
  have hsd : call.source.datatype = s.datatype := by rw [← hse]; rfl
  have htd : call.target.datatype = t.datatype := by rw [← hte]; rfl
  cases call with
  | plain s' t' =>
    simp only [MappingCall.source, MappingCall.target] at *
    simp only [applyCall, BufferLayoutConverter.setCustomMapping]
    rw [hsg, htg]
    simp only [expectSome, bind, Except.bind]
    cases hconv : conversion s.datatype t.datatype with
    | none =>
      refine ⟨fun _ => by rw [makeDefault_panic hconv], fun ha => ?_⟩
      have := ha.2.2.2
      simp [MappingCall.rule, MappingCall.source, MappingCall.target, hsd, htd, hconv] at this
    | some f =>
      have hrule : (MappingCall.plain s' t').rule = some ⟨s', f⟩ := by
        simp [MappingCall.rule, MappingCall.source, MappingCall.target, hsd, htd, hconv]
      refine ⟨fun ha => absurd ⟨hs, ht, trivial, by rw [hrule]; rfl⟩ ha, fun _ => ?_⟩
      obtain ⟨m, hm, e1, e2, _⟩ := makeDefault_ok hconv
      obtain ⟨_, _, hdoes⟩ := does_default hconv hm
      rw [hm]
      refine ⟨_, rfl, rfl, rfl, ?_⟩
      exact h.update (call := .plain s' t') (by rw [e1]; exact hsm) (by rw [e2]; exact htm)
        (by rw [e2]; exact hte) hrule (by rw [e1]; exact hse.symm) hdoes
  | transformed s' t' ty f onSource =>
    simp only [MappingCall.source, MappingCall.target] at *
    simp only [applyCall, BufferLayoutConverter.setCustomMappingWithTransformation]
    rw [hsg, htg]
    simp only [expectSome, bind, Except.bind]
    by_cases hty : ty = if onSource then s.datatype else t.datatype
    case neg =>
      rw [assertThat_false (decide_eq_false hty)]
      refine ⟨fun _ => rfl, fun ha => absurd ?_ hty⟩
      have := ha.2.2.1
      cases onSource
      · simp only [MappingCall.typed] at this; rw [this, htd]; rfl
      · simp only [MappingCall.typed] at this; rw [this, hsd]; rfl
    rw [assertThat_true (decide_eq_true hty)]
    simp only
    cases hconv : conversion s.datatype t.datatype with
    | none =>
      refine ⟨fun _ => ?_, fun ha => ?_⟩
      · unfold AttributeMapping.makeTransformed
        rw [makeDefault_panic hconv]
        rfl
      · have := ha.2.2.2
        simp [MappingCall.rule, MappingCall.source, MappingCall.target, hsd, htd, hconv] at this
    | some g =>
      have hrule : (MappingCall.transformed s' t' ty f onSource).rule =
          some ⟨s', fun v => if onSource then g (f v) else f (g v)⟩ := by
        cases onSource <;> simp [MappingCall.rule, MappingCall.source, MappingCall.target, hsd, htd, hconv]
      have htyped : (MappingCall.transformed s' t' ty f onSource).typed := by
        cases onSource
        · simp only [MappingCall.typed]; rw [hty, htd]; rfl
        · simp only [MappingCall.typed]; rw [hty, hsd]; rfl
      refine ⟨fun ha => absurd ⟨hs, ht, htyped, by rw [hrule]; rfl⟩ ha, fun _ => ?_⟩
      obtain ⟨m, hm, _⟩ := makeDefault_ok hconv
      have hm' : AttributeMapping.makeTransformed s t ⟨ty.size, f, onSource⟩ =
          .ok { m with transformation := some ⟨ty.size, f, onSource⟩ } := by
        unfold AttributeMapping.makeTransformed
        rw [hm]
        rfl
      obtain ⟨e1, e2, hdoes⟩ := does_transformed hconv hty hsound hm'
      rw [hm']
      refine ⟨_, rfl, rfl, rfl, ?_⟩
      exact h.update (call := .transformed s' t' ty f onSource) (by rw [e1]; exact hsm) (by rw [e2]; exact htm)
        (by rw [e2]; exact hte) hrule (by rw [e1]; exact hse.symm) hdoes

/-- What is needed of the mapping for a target attribute. -/
structure MappingOf (l : PointLayout) (t : Member) (m : AttributeMapping) : Prop where
  target : m.target = t
  source : m.source ∈ l.attributes
  rule : ∃ r, defaultPlan l t.definition = some r ∧ r.source = m.source.definition ∧ Does m r.value

theorem mappingFor_spec (source : PointLayout) (t : Member) :
    (defaultPlan source t.definition = none → BufferLayoutConverter.mappingFor source t = .error .panic) ∧
    ((defaultPlan source t.definition).isSome →
      ∃ m, BufferLayoutConverter.mappingFor source t = .ok m ∧ MappingOf source t m) := by
  unfold BufferLayoutConverter.mappingFor PointLayout.getAttributeByName defaultPlan
  rw [show t.definition.name = t.name from rfl]
  cases hf : source.attributes.find? (fun m => m.name = t.name) with
  | none => exact ⟨fun _ => rfl, fun h => by cases h⟩
  | some s =>
    simp only [expectSome, bind, Except.bind]
    rw [show t.definition.datatype = t.datatype from rfl]
    cases hc : conversion s.datatype t.datatype with
    | none => exact ⟨fun _ => makeDefault_panic hc, fun h => (by cases h)⟩
    | some f =>
      refine ⟨fun h => (by cases h), fun _ => ?_⟩
      obtain ⟨m, hm, _⟩ := makeDefault_ok hc
      obtain ⟨e1, e2, hd⟩ := does_default hc hm
      refine ⟨m, hm, e2, by rw [e1]; exact List.mem_of_find?_eq_some hf, ⟨s.definition, f⟩, ?_, by rw [e1], hd⟩
      unfold defaultPlan
      rw [show t.definition.name = t.name from rfl, hf]
      simp only
      rw [show t.definition.datatype = t.datatype from rfl, hc]
      rfl

theorem mappingForOrNone_spec (source : PointLayout) (t : Member) :
    (¬ named source t.name → BufferLayoutConverter.mappingForOrNone source t = .ok none ∧
      defaultPlan source t.definition = none) ∧
    (named source t.name → BufferLayoutConverter.mappingForOrNone source t =
      (BufferLayoutConverter.mappingFor source t).map some) := by
  unfold BufferLayoutConverter.mappingForOrNone BufferLayoutConverter.mappingFor
    PointLayout.getAttributeByName defaultPlan
  rw [show t.definition.name = t.name from rfl]
  cases hf : source.attributes.find? (fun m => m.name = t.name) with
  | none =>
    refine ⟨fun _ => ⟨rfl, rfl⟩, fun ⟨m, hm, he⟩ => ?_⟩
    rw [List.find?_eq_none] at hf
    exact absurd (by simpa using he) (hf m hm)
  | some s =>
    refine ⟨fun h => absurd ⟨s, List.mem_of_find?_eq_some hf, by simpa using List.find?_some hf⟩ h, fun _ => ?_⟩
    simp only [expectSome, bind, Except.bind]
    cases AttributeMapping.makeDefault s t <;> rfl

/-- The targets for which there is a source of the same name, and that can be converted. -/
theorem collect_mappings {source : PointLayout} : ∀ {ts : List Member},
    (∀ t ∈ ts, named source t.name → (defaultPlan source t.definition).isSome) →
    ∃ os, ts.mapM (BufferLayoutConverter.mappingForOrNone source) = .ok os ∧
      ((os.filterMap id).map AttributeMapping.target).Sublist ts ∧
      (∀ m ∈ os.filterMap id, MappingOf source m.target m) ∧
      ∀ t ∈ ts, (∀ m ∈ os.filterMap id, m.target ≠ t) → defaultPlan source t.definition = none := by
  intro ts
  induction ts with
  | nil => intro _; exact ⟨[], rfl, by simp, by simp, by simp⟩
  | cons t ts ih =>
    intro h
    obtain ⟨os, h1, h2, h3, h4⟩ := ih fun t ht => h t (by simp [ht])
    by_cases hn : named source t.name
    · obtain ⟨m, hm, hof⟩ := (mappingFor_spec source t).2 (h t (by simp) hn)
      refine ⟨some m :: os, ?_, ?_, ?_, ?_⟩
      · rw [List.mapM_cons, (mappingForOrNone_spec source t).2 hn, hm, h1]; rfl
      · simp only [List.filterMap_cons_some (f := id) (a := some m) (b := m) rfl, List.map_cons, hof.target]
        exact h2.cons_cons t
      · intro x hx
        simp only [List.filterMap_cons_some (f := id) (a := some m) (b := m) rfl, List.mem_cons] at hx
        rcases hx with rfl | hx
        · rw [hof.target]; exact hof
        · exact h3 x hx
      · intro x hx hno
        simp only [List.filterMap_cons_some (f := id) (a := some m) (b := m) rfl, List.mem_cons] at hno
        rcases List.mem_cons.1 hx with rfl | hx
        · exact absurd hof.target (hno m (.inl rfl))
        · exact h4 x hx fun y hy => hno y (.inr hy)
    · obtain ⟨hm, hp⟩ := (mappingForOrNone_spec source t).1 hn
      refine ⟨none :: os, ?_, ?_, h3, ?_⟩
      · rw [List.mapM_cons, hm, h1]; rfl
      · exact h2.cons t
      · intro x hx hno
        rcases List.mem_cons.1 hx with rfl | hx
        · exact hp
        · exact h4 x hx hno

theorem realizes_withDefault {source target : PointLayout} (ht : Solid target)
    (h : ∀ t ∈ target.attributes, named source t.name → (defaultPlan source t.definition).isSome) :
    ∃ conv, BufferLayoutConverter.forLayoutsWithDefault source target = .ok conv ∧
      conv.fromLayout = source ∧ conv.toLayout = target ∧ Realizes conv (defaultPlan source) := by
  obtain ⟨os, h1, h2, h3, h4⟩ := collect_mappings h
  refine ⟨⟨source, target, os.filterMap id⟩, ?_, rfl, rfl, ?_⟩
  · unfold BufferLayoutConverter.forLayoutsWithDefault
    rw [h1]
    rfl
  · constructor
    · have := (h2.map Member.definition).nodup (defs_nodup ht)
      rw [List.map_map] at this
      exact this
    · intro m hm; exact (h3 m hm).source
    · intro m hm; exact h2.subset (List.mem_map_of_mem hm)
    · intro m hm; exact (h3 m hm).rule
    · intro d hd hno
      obtain ⟨t, htm, rfl⟩ := List.mem_map.1 hd
      exact h4 t htm fun m hm e => hno m hm (by rw [e])

theorem mapM_panic {α β : Type} {f : α → Out β} : ∀ {xs : List α},
    (∀ x ∈ xs, (∃ y, f x = .ok y) ∨ f x = .error .panic) → (∃ x ∈ xs, f x = .error .panic) →
    xs.mapM f = .error .panic := by
  intro xs
  induction xs with
  | nil => rintro _ ⟨x, hx, _⟩; simp at hx
  | cons x xs ih =>
    rintro h ⟨y, hy, he⟩
    rw [List.mapM_cons]
    rcases h x (by simp) with ⟨z, hz⟩ | hp
    · rw [hz]
      have : xs.mapM f = .error .panic := by
        refine ih (fun x hx => h x (by simp [hx])) ?_
        rcases List.mem_cons.1 hy with rfl | hy
        · rw [hz] at he; cases he
        · exact ⟨y, hy, he⟩
      simp only [bind, Except.bind, this]
    · rw [hp]; rfl

theorem mappingFor_total (source : PointLayout) (t : Member) :
    (∃ m, BufferLayoutConverter.mappingFor source t = .ok m) ∨
      BufferLayoutConverter.mappingFor source t = .error .panic := by
  cases h : defaultPlan source t.definition with
  | none => exact .inr ((mappingFor_spec source t).1 h)
  | some r =>
    obtain ⟨m, hm, _⟩ := (mappingFor_spec source t).2 (by rw [h]; rfl)
    exact .inl ⟨m, hm⟩

theorem withDefault_panics {source target : PointLayout}
    (h : ¬ ∀ t ∈ target.attributes, named source t.name → (defaultPlan source t.definition).isSome) :
    BufferLayoutConverter.forLayoutsWithDefault source target = .error .panic := by
  unfold BufferLayoutConverter.forLayoutsWithDefault
  rw [mapM_panic]
  · rfl
  · intro t _
    by_cases hn : named source t.name
    · rw [(mappingForOrNone_spec source t).2 hn]
      rcases mappingFor_total source t with ⟨m, hm⟩ | hp
      · exact .inl ⟨some m, by rw [hm]; rfl⟩
      · exact .inr (by rw [hp]; rfl)
    · exact .inl ⟨none, ((mappingForOrNone_spec source t).1 hn).1⟩
  · simp only [not_forall] at h
    obtain ⟨t, ht, hn, hno⟩ := h
    refine ⟨t, ht, ?_⟩
    rw [(mappingForOrNone_spec source t).2 hn, (mappingFor_spec source t).1 (by simpa using hno)]
    rfl

theorem forLayouts_panics {source target : PointLayout}
    (h : ¬ ∀ t ∈ target.attributes, (defaultPlan source t.definition).isSome) :
    BufferLayoutConverter.forLayouts source target = .error .panic := by
  unfold BufferLayoutConverter.forLayouts
  rw [mapM_panic]
  · rfl
  · intro t _; exact mappingFor_total source t
  · simp only [not_forall] at h
    obtain ⟨t, ht, hno⟩ := h
    exact ⟨t, ht, (mappingFor_spec source t).1 (by simpa using hno)⟩

theorem realizes_forLayouts {source target : PointLayout} (ht : Solid target)
    (h : ∀ t ∈ target.attributes, (defaultPlan source t.definition).isSome) :
    ∃ conv, BufferLayoutConverter.forLayouts source target = .ok conv ∧
      conv.fromLayout = source ∧ conv.toLayout = target ∧ Realizes conv (defaultPlan source) := by
  have key : ∀ ts : List Member, (∀ t ∈ ts, (defaultPlan source t.definition).isSome) →
      ∃ ms, ts.mapM (BufferLayoutConverter.mappingFor source) = .ok ms ∧
        ts.mapM (BufferLayoutConverter.mappingForOrNone source) = .ok (ms.map some) := by
    intro ts
    induction ts with
    | nil => intro _; exact ⟨[], rfl, rfl⟩
    | cons t ts ih =>
      intro h
      obtain ⟨ms, h1, h2⟩ := ih fun t ht => h t (by simp [ht])
      obtain ⟨m, hm, _⟩ := (mappingFor_spec source t).2 (h t (by simp))
      refine ⟨m :: ms, by rw [List.mapM_cons, hm, h1]; rfl, ?_⟩
      have hn : named source t.name := by
        by_contra hn
        have := ((mappingForOrNone_spec source t).1 hn).2
        have := h t (by simp)
        simp_all
      rw [List.mapM_cons, (mappingForOrNone_spec source t).2 hn, hm, h2]
      rfl
  obtain ⟨ms, h1, h2⟩ := key target.attributes h
  obtain ⟨conv, hc, h3⟩ := realizes_withDefault (source := source) ht fun t ht _ => h t ht
  refine ⟨conv, ?_, h3⟩
  unfold BufferLayoutConverter.forLayouts
  unfold BufferLayoutConverter.forLayoutsWithDefault at hc
  rw [h2] at hc
  rw [h1]
  rw [← hc]
  have : (ms.map some).filterMap id = ms := by simp
  simp only [bind, Except.bind, this]

end Pasture
