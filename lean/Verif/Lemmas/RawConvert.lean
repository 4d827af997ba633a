import Verif.Lemmas.ConvertPlan

/-! # `RawPointConverter` -/

namespace Pasture

open Spec

theorem rawAttribute_convert {c : Converter} {s t : Member} {f : Bytes → Bytes}
    (hc : Converts c s.datatype t.datatype f) {r x : Bytes} (hs : s.offset + s.size ≤ r.length)
    (ht : t.offset + t.size ≤ x.length) :
    (⟨c, ⟨s.offset, s.offset + s.size⟩, ⟨t.offset, t.offset + t.size⟩⟩ : RawAttributeConverter).convert r x =
      .ok (overwrite x t.offset (f (window r s.offset s.size))) := by
  unfold RawAttributeConverter.convert
  simp only
  rw [sliceGet_ok hs, sliceGet_ok ht]
  simp only [bind, Except.bind]
  have hrun : c.run (window r s.offset s.size) (window x t.offset t.size) = .ok (f (window r s.offset s.size)) :=
    hc.run _ _ (length_window hs) (length_window ht)
  rw [hrun]
  simp only
  have hl : (f (window r s.offset s.size)).length = t.size := hc.size _
  rw [slicePut_ok (by omega) (by omega)]
  rfl

/-- The value attribute `d` gets from the source members `ms` of the record `r`. -/
def rawValue (ms : List Member) (r : Bytes) (d : AttrDef) (old : Bytes) : Bytes :=
  match ms.find? (fun m => m.name = d.name) with
  | some m => if m.datatype = d.datatype then old else
    match conversion m.datatype d.datatype with
    | some f => f (window r m.offset m.size)
    | none => old
  | none => old

theorem rawPoint_loop {b : PointLayout} (hb : Solid b) {r : Bytes} : ∀ {ms : List Member},
    (ms.map Member.name).Nodup → (∀ m ∈ ms, m.offset + m.size ≤ r.length) →
    (∀ m ∈ ms, ∀ t ∈ b.attributes, t.name = m.name → (conversion m.datatype t.datatype).isSome) →
    ∃ cs, ms.mapM (rawConverterFor b) = .ok cs ∧ ∀ x : Bytes, x.length = b.size →
      ∃ x', rawPointConvert (cs.filterMap id) r x = .ok x' ∧ x'.length = b.size ∧
        pointOf b x' = (pointOf b x).map fun kv => (kv.1, rawValue ms r kv.1 kv.2) := by
  intro ms
  induction ms with
  | nil =>
    intro _ _ _
    exact ⟨[], rfl, fun x hx => ⟨x, rfl, hx, by simp [rawValue]⟩⟩
  | cons m ms ih =>
    intro hn hin hconv
    rw [List.map_cons, List.nodup_cons] at hn
    obtain ⟨cs, h1, h2⟩ := ih hn.2 (fun m hm => hin m (by simp [hm])) (fun m hm => hconv m (by simp [hm]))
    have hother : ms.find? (fun x => x.name = m.name) = none := by
      rw [List.find?_eq_none]
      intro x hx he
      exact hn.1 (List.mem_map.2 ⟨x, hx, by simpa using he⟩)
    -- the values of a point, when the first member does not write
    have hskip : (∀ t ∈ b.attributes, t.name = m.name → m.datatype = t.datatype) →
        ∀ x : Bytes, (pointOf b x).map (fun kv => (kv.1, rawValue (m :: ms) r kv.1 kv.2)) =
          (pointOf b x).map fun kv => (kv.1, rawValue ms r kv.1 kv.2) := by
      intro hsame x
      apply List.map_congr_left
      intro kv hkv
      obtain ⟨t, ht, e⟩ := List.mem_map.1 hkv
      congr 1
      unfold rawValue
      rw [List.find?_cons]
      by_cases hname : m.name = kv.1.name
      · have htn : t.name = m.name := by rw [hname, ← e]; rfl
        have hty := hsame t ht htn
        simp only [hname, decide_true]
        rw [← hname, hother, if_pos (by rw [hty, ← e]; rfl)]
      · simp only [hname, decide_false]
    unfold rawConverterFor at *
    cases hf : b.attributes.find? (fun t => t.name = m.name) with
    | none =>
      have hno : ∀ t ∈ b.attributes, t.name ≠ m.name := by
        rw [List.find?_eq_none] at hf
        intro t ht he
        exact hf t ht (by simpa using he)
      have hhas : b.hasAttributeWithName m.name = false := by
        unfold PointLayout.hasAttributeWithName
        rw [List.any_eq_false]
        intro t ht
        simpa using hno t ht
      refine ⟨none :: cs, ?_, fun x hx => ?_⟩
      · rw [List.mapM_cons, h1, hhas]
        rfl
      · rw [hskip (fun t ht he => absurd he (hno t ht))]
        exact h2 x hx
    | some t =>
      have htm := List.mem_of_find?_eq_some hf
      have htn : t.name = m.name := by simpa using List.find?_some hf
      have hhas : b.hasAttributeWithName m.name = true := by
        unfold PointLayout.hasAttributeWithName
        rw [List.any_eq_true]
        exact ⟨t, htm, by simpa using htn⟩
      have huniq : ∀ t' ∈ b.attributes, t'.name = m.name → t' = t := fun t' ht' he =>
        List.inj_on_of_nodup_map hb.names ht' htm (he.trans htn.symm)
      have hget : b.getAttributeByName m.name = some t := hf
      have hnames : assertThat (decide (m.definition.name = t.definition.name)) = .ok () :=
        assertThat_true (decide_eq_true htn.symm)
      by_cases hty : m.datatype = t.datatype
      · refine ⟨none :: cs, ?_, fun x hx => ?_⟩
        · rw [List.mapM_cons, h1, hhas, hget]
          simp only [if_true, expectSome, bind, Except.bind, getConverterForAttributes]
          rw [hnames]
          simp only
          rw [if_pos (show m.definition.datatype = t.definition.datatype from hty)]
          rfl
        · rw [hskip (fun t' ht' he => by rw [huniq t' ht' he]; exact hty)]
          exact h2 x hx
      · obtain ⟨f, hf'⟩ := Option.isSome_iff_exists.1 (hconv m (by simp) t htm htn)
        obtain ⟨c, hc, hcv⟩ := (generic_spec hty).2 f hf'
        refine ⟨some ⟨c, ⟨m.offset, m.offset + m.size⟩, ⟨t.offset, t.offset + t.size⟩⟩ :: cs, ?_, fun x hx => ?_⟩
        · rw [List.mapM_cons, h1, hhas, hget]
          simp only [if_true, expectSome, bind, Except.bind, getConverterForAttributes]
          rw [hnames]
          simp only
          rw [if_neg (show ¬ m.definition.datatype = t.definition.datatype from hty),
            show getGenericConverter m.definition.datatype t.definition.datatype = _ from hc]
          rfl
        · have hti := hb.inside t htm
          have hstep := rawAttribute_convert hcv (hin m (by simp)) (x := x) (by omega)
          have hlen : (f (window r m.offset m.size)).length = t.size := hcv.size _
          obtain ⟨x', e1, e2, e3⟩ := h2 (overwrite x t.offset (f (window r m.offset m.size)))
            (by rw [length_overwrite (by omega), hx])
          refine ⟨x', ?_, e2, ?_⟩
          · unfold rawPointConvert forLoop at e1 ⊢
            rw [List.filterMap_cons_some (f := id) rfl, List.foldlM_cons, hstep]
            exact e1
          · rw [e3, pointOf_overwrite hb hx htm hlen]
            unfold Point.set
            rw [List.map_map]
            apply List.map_congr_left
            intro kv hkv
            obtain ⟨t', ht', e⟩ := List.mem_map.1 hkv
            simp only [Function.comp_apply]
            have hk : kv.1 = t'.definition := by rw [← e]
            by_cases hd : kv.1 = t.definition
            · rw [if_pos hd]
              have h1 : kv.1.name = m.name := by rw [hd]; exact htn
              have h2 : kv.1.datatype = t.datatype := by rw [hd]; rfl
              simp only
              congr 1
              unfold rawValue
              rw [List.find?_cons]
              simp only [h1, decide_true, hother]
              rw [h2, if_neg hty, hf']
            · rw [if_neg hd]
              simp only
              congr 1
              have hname : ¬ m.name = kv.1.name := by
                intro he
                apply hd
                rw [hk, huniq t' ht' (by rw [he, hk]; rfl)]
              unfold rawValue
              rw [List.find?_cons]
              simp only [hname, decide_false]

end Pasture
