import Verif.Lemmas.HashMapOps
import Verif.Lemmas.Solid

/-! # Histories, and buffers in arbitrary valid states -/

namespace Pasture

open Spec

/-- Both buffer types through one interface: the buffer that holds given records. -/
class HoldsRecords (β : Type) [OwningBuffer β] where
  ofRecords : PointLayout → List Bytes → β
  step_eq : ∀ {l : PointLayout} {rs : List Bytes}, Solid l → AllLen l.size rs → ∀ op : Op,
    op.wellFormed l → runOp (ofRecords l rs) op = (op.stepRecords l rs).map (ofRecords l)
  shows : ∀ {l : PointLayout} {rs : List Bytes}, Solid l → AllLen l.size rs →
    ShowsPoints (ofRecords l rs) l (rs.map (pointOf l))

instance : HoldsRecords VectorBuffer where
  ofRecords := Interleaved.ofRecords
  step_eq := vector_step
  shows := interleaved_shows_points

instance : HoldsRecords HashMapBuffer where
  ofRecords := HashMapBuffer.ofRecords
  step_eq := HashMapBuffer.step_eq
  shows := HashMapBuffer.shows_points

theorem runOps_eq {β : Type} [OwningBuffer β] [HoldsRecords β] {l : PointLayout} (hl : Solid l)
    {rs : List Bytes} (h : AllLen l.size rs) (ops : List Op) (hops : ∀ op ∈ ops, op.wellFormed l) :
    runOps (HoldsRecords.ofRecords l rs : β) ops = (recordHistory l ops rs).map (HoldsRecords.ofRecords l) ∧
      ∀ rs', recordHistory l ops rs = .ok rs' → AllLen l.size rs' := by
  rw [recordHistory_eq]
  exact runOps_sim (abs := (HoldsRecords.ofRecords l : List Bytes → β)) (inv := AllLen l.size)
    (step := fun rs op => op.stepRecords l rs) (ok := fun op => op.wellFormed l)
    (fun rs op h1 h2 => HoldsRecords.step_eq hl h1 op h2)
    (fun rs op rs' h1 h2 h3 => stepRecords_allLen hl h1 h2 h3) ops rs h hops

theorem allowed_map {l : PointLayout} {rs : List Bytes} (op : Op) :
    op.allowed l (rs.map (pointOf l)).length ↔ op.allowed l rs.length := by
  rw [List.length_map]

/-- Decoding records commutes with histories. -/
theorem history_map {l : PointLayout} (hl : Orderly l) : ∀ (ops : List Op) (rs : List Bytes),
    AllLen l.size rs → (∀ op ∈ ops, op.wellFormed l) →
    pointHistory l ops (rs.map (pointOf l)) = (recordHistory l ops rs).map (List.map (pointOf l)) := by
  intro ops
  induction ops with
  | nil => intro rs _ _; rfl
  | cons op ops ih =>
    intro rs h hops
    have hop := hops op (by simp)
    simp only [pointHistory, recordHistory, Op.stepPoints, Op.stepRecords, List.length_map]
    by_cases ha : op.allowed l rs.length
    · rw [if_pos ha, if_pos ha, ← onRecords_map hl h hop ha]
      exact ih _ (onRecords_allLen hl h hop) (fun x hx => hops x (by simp [hx]))
    · rw [if_neg ha, if_neg ha]; rfl

namespace HashMapBuffer

/-- Every attribute of the layout has a column, of exactly `length` values. -/
def Inv (b : HashMapBuffer) : Prop :=
  b.columns.map Prod.fst = b.layout.attributes.map Member.definition ∧
    ∀ kv ∈ b.columns, kv.2.length = b.length * kv.1.size

/-- A consistent columnar buffer holds some records. -/
theorem exists_records {b : HashMapBuffer} (hl : Orderly b.layout) (hb : b.Inv) :
    ∃ rs, AllLen b.layout.size rs ∧ rs.length = b.length ∧ b = ofRecords b.layout rs := by
  obtain ⟨cols, l, n⟩ := b
  obtain ⟨h1, h2⟩ := hb
  simp only at hl h1 h2 ⊢
  -- the columns, by member
  have hget : ∀ m ∈ l.attributes, ∃ c, Columns.get cols m.definition = some c ∧ c.length = n * m.size := by
    intro m hm
    have : m.definition ∈ cols.map Prod.fst := by rw [h1]; exact List.mem_map_of_mem hm
    unfold Columns.get
    cases hc : cols.lookup m.definition with
    | none =>
      obtain ⟨kv, hkv, he⟩ := List.mem_map.1 this
      have := List.lookup_eq_none_iff.1 hc kv hkv
      simp [he] at this
    | some c =>
      obtain ⟨l1, l2, e, _⟩ := List.lookup_eq_some_iff.1 hc
      exact ⟨c, rfl, h2 (m.definition, c) (by rw [e]; simp)⟩
  have hcols : cols = colsOf l.attributes fun m => (Columns.get cols m.definition).getD [] := by
    have hlen : cols.length = l.attributes.length := by
      have := congrArg List.length h1; simpa using this
    have hn : (cols.map Prod.fst).Nodup := by rw [h1]; exact defs_nodup hl
    apply List.ext_getElem
    · simp [hlen]
    · intro i hi hi'
      have hi2 : i < l.attributes.length := by omega
      have e1 : cols[i].1 = (l.attributes[i]).definition := by
        have : (cols.map Prod.fst)[i]? = (l.attributes.map Member.definition)[i]? := by rw [h1]
        simpa [List.getElem?_eq_getElem hi, List.getElem?_eq_getElem hi2] using this
      have e2 : Columns.get cols cols[i].1 = some cols[i].2 := by
        unfold Columns.get
        rw [List.lookup_eq_some_iff]
        refine ⟨cols.take i, cols.drop (i + 1), ?_, ?_⟩
        · rw [show ((cols[i].1, cols[i].2) : AttrDef × Bytes) = cols[i] from rfl,
            ← List.drop_eq_getElem_cons hi, List.take_append_drop]
        · intro kv hkv
          have : kv.1 ≠ cols[i].1 := by
            intro he
            obtain ⟨j, hj, rfl⟩ := List.mem_iff_getElem.1 hkv
            have hj' : j < i := by simp at hj; omega
            rw [List.getElem_take] at he
            have := (List.nodup_iff_injective_get.1 hn) (a₁ := ⟨j, by simp; omega⟩)
              (a₂ := ⟨i, by simp; omega⟩) (by simpa using he)
            simp at this; omega
          simpa using fun h => this h.symm
      simp only [List.getElem_map]
      rw [← e1, e2]
      rfl
  let pt : Nat → Point := fun i => colsOf l.attributes fun m =>
    window ((Columns.get cols m.definition).getD []) (i * m.size) m.size
  have hty : ∀ i, i < n → Typed l (pt i) := by
    intro i hi
    constructor
    · simp [pt, colsOf, List.map_map, Function.comp_def]
    · intro kv hkv
      obtain ⟨m, hm, rfl⟩ := List.mem_map.1 hkv
      obtain ⟨c, hc1, hc2⟩ := hget m hm
      simp only [hc1, Option.getD_some]
      have := Interleaved.block_end_le (sz := m.size) hi
      exact length_window (by omega)
  refine ⟨(List.range n).map fun i => recordOf l (pt i), ?_, by simp, ?_⟩
  · intro r hr
    obtain ⟨i, hi, rfl⟩ := List.mem_map.1 hr
    exact (recordOf_spec hl (hty i (List.mem_range.1 hi))).1
  · simp only [ofRecords, List.length_map, List.length_range]
    congr 1
    conv => lhs; rw [hcols]
    apply List.map_congr_left
    intro m hm
    congr 1
    obtain ⟨c, hc1, hc2⟩ := hget m hm
    simp only [hc1, Option.getD_some]
    rw [← flatten_recordsOf hc2]
    congr 1
    unfold recordsOf vals
    rw [List.map_map]
    apply List.map_congr_left
    intro i hi
    simp only [Function.comp_apply]
    have h3 := (recordOf_spec hl (hty i (List.mem_range.1 hi))).2
    unfold pointOf at h3
    have := (List.map_inj_left.1 h3) m hm
    have := (Prod.mk.inj this).2
    rw [this]
    simp only [hc1, Option.getD_some]

theorem ofRecords_inv {l : PointLayout} {rs : List Bytes} (hl : Orderly l) (h : AllLen l.size rs) :
    (ofRecords l rs).Inv := by
  refine ⟨by simp [colsOf, List.map_map, Function.comp_def], ?_⟩
  intro kv hkv
  obtain ⟨m, hm, rfl⟩ := List.mem_map.1 hkv
  simp only
  rw [(vals_allLen h (hl.inside m hm)).flatten_length, vals_length]
  rfl

end HashMapBuffer

/-- Reading back after writing one attribute. -/
theorem value?_set {l : PointLayout} {ps : List Point} (hps : ∀ p ∈ ps, Typed l p) {d : AttrDef}
    (hd : d ∈ l.attributes.map Member.definition) {i : Nat} (hi : i < ps.length) (v : Bytes)
    (d' : AttrDef) (j : Nat) :
    value? (ps.modify i fun p => p.set d v) d' j =
      if d' = d ∧ j = i then some v else value? ps d' j := by
  have hget : ∀ p : Point, ∀ d', (p.set d v).get d' =
      if d' = d then (p.get d').map (fun _ => v) else p.get d' := by
    intro p d'
    unfold Point.set Point.get
    induction p with
    | nil => simp
    | cons kv p ih =>
      obtain ⟨k, x⟩ := kv
      simp only [List.map_cons, List.lookup_cons] at ih ⊢
      by_cases h1 : k = d <;> by_cases h2 : d' = k
      · subst h1; subst h2; simp
      · have : (d' == k) = false := by simpa using h2
        subst h1
        simp only [if_true, List.lookup_cons, this]
        exact ih
      · subst h2; simp [h1]
      · have : (d' == k) = false := by simpa using h2
        simp only [if_neg h1, List.lookup_cons, this]
        exact ih
  unfold value?
  rw [List.getElem?_modify]
  cases hp : ps[j]? with
  | none =>
    have : ps.length ≤ j := by simpa using hp
    have : ¬ (d' = d ∧ j = i) := by omega
    simp [this]
  | some p =>
    by_cases hij : i = j
    · subst hij
      simp only [if_true, Option.map_eq_map, Option.map_some, bind, Option.bind, hget]
      by_cases hdd : d' = d
      · subst hdd
        have hmem := List.mem_of_getElem? hp
        obtain ⟨m, hm, rfl⟩ := List.mem_map.1 hd
        obtain ⟨w, hw, _⟩ := typed_get (hps p hmem) hm
        simp [hw]
      · simp [hdd]
    · have : ¬ (d' = d ∧ j = i) := fun h => hij h.2.symm
      simp [hij, this]

end Pasture
