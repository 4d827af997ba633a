import Verif.Props.Views

/-!
# Property C62: typed views
-/

namespace Pasture.Props

open Spec BorrowedBuffer BorrowedMutBuffer OwningBuffer

/-- `view::<T>()` and `view_mut::<T>()` panic exactly when `T::layout()` is not the buffer's layout. -/
theorem C62_view_checks_layout {β : Type} [BorrowedBuffer β] (b : β) (t : PointLayout) :
    PointView.new b t = if t = layout b then .ok () else .error .panic := by
  unfold PointView.new assertThat panicked
  by_cases h : t = layout b <;> simp [h]

/-- `at` and `at_ref` give the bytes of the point, and panic past the end. -/
theorem C62_at_interleaved {β : Type} [InterleavedBuffer β] (b : β) (l : PointLayout) (rs : List Bytes)
    (h : ShowsRecords b l rs) (i : Nat) :
    PointView.get b l i = answer rs[i]? ∧ PointView.atRef b l i = answer rs[i]? := by
  constructor
  · exact h.getPoint_eq i _ (by simp [zeros])
  · unfold PointView.atRef
    rw [h.getPointRef_eq]
    cases hr : rs[i]? with
    | none => rfl
    | some r =>
      have := (showsRecords_allLen h).getElem hr
      simp only [answer, bind, Except.bind]
      rw [assertThat_true (decide_eq_true this)]
      rfl

/-- `at` on any buffer: the attribute values of the point. -/
theorem C62_at {β : Type} [BorrowedBuffer β] (b : β) (l : PointLayout) (ps : List Point)
    (h : ShowsPoints b l ps) (i : Nat) :
    (∀ p, ps[i]? = some p → ∃ r, PointView.get b l i = .ok r ∧ pointOf l r = p) ∧
    (ps[i]? = none → PointView.get b l i = .error .panic) := by
  constructor
  · intro p hp
    obtain ⟨r, h1, _, h3⟩ := h.getPoint_ok i p (zeros l.size) hp (by simp [zeros])
    exact ⟨r, h1, h3⟩
  · intro hp
    exact h.getPoint_panic i _ (by simpa using hp) (by simp [zeros])

/-- `set_at` replaces one point and nothing else; it panics past the end. -/
theorem C62_set_at_interleaved (b : VectorBuffer) (hl : Solid b.layout) (hb : VectorConsistent b)
    (rs : List Bytes) (h : ShowsRecords b b.layout rs) (i : Nat) (v : Bytes) (hv : v.length = b.layout.size) :
    (i < len b → ∃ c, PointView.setAt b i v = .ok c ∧ ShowsRecords c b.layout (rs.set i v)) ∧
    (len b ≤ i → PointView.setAt b i v = .error .panic) := by
  have hn := h.points.len_eq
  rw [List.length_map] at hn
  obtain ⟨xs, h1, h2⟩ := vector_shows b hb
  rw [hn]
  generalize b.layout = l at *
  subst h2
  have := h.unique (interleaved_shows_records hl h1)
  subst this
  have hs := HoldsRecords.step_eq (β := VectorBuffer) hl h1 (.setPoint i v) hv
  constructor
  · intro hi
    unfold Op.stepRecords at hs
    rw [if_pos (by exact hi)] at hs
    exact ⟨_, hs, interleaved_shows_records hl (h1.set hv i)⟩
  · intro hi
    unfold Op.stepRecords at hs
    rw [if_neg (by simp only [Op.allowed]; omega)] at hs
    exact hs

/-- The same for a columnar buffer. -/
theorem C62_set_at_columnar (b : HashMapBuffer) (hl : Solid b.layout) (hb : HashMapConsistent b)
    (ps : List Point) (h : ShowsPoints b b.layout ps) (i : Nat) (v : Bytes) (hv : v.length = b.layout.size) :
    (i < len b → ∃ c, PointView.setAt b i v = .ok c ∧
      ShowsPoints c b.layout (ps.set i (pointOf b.layout v))) ∧
    (len b ≤ i → PointView.setAt b i v = .error .panic) := by
  have hn := h.len_eq
  obtain ⟨rs, h1, h2⟩ := hashmap_shows b hl hb
  rw [hn]
  generalize b.layout = l at *
  subst h2
  have := h.unique (HashMapBuffer.shows_points hl h1)
  subst this
  have hs := HoldsRecords.step_eq (β := HashMapBuffer) hl h1 (.setPoint i v) hv
  rw [List.length_map]
  constructor
  · intro hi
    unfold Op.stepRecords at hs
    rw [if_pos (by exact hi)] at hs
    refine ⟨_, hs, ?_⟩
    have := HashMapBuffer.shows_points hl (h1.set hv i)
    rw [List.map_set] at this
    exact this
  · intro hi
    unfold Op.stepRecords at hs
    rw [if_neg (by simp only [Op.allowed]; omega)] at hs
    exact hs

/-- `at_mut`: assigning through the reference changes one point. -/
theorem C62_at_mut (b : VectorBuffer) (hl : Solid b.layout) (hb : VectorConsistent b)
    (rs : List Bytes) (h : ShowsRecords b b.layout rs) (i : Nat) (hi : i < len b) (f : Bytes → Bytes)
    (hf : ∀ r, (f r).length = r.length) :
    ∃ c, PointView.atMut b b.layout i f = .ok c ∧ ShowsRecords c b.layout (rs.modify i f) := by
  have hn := h.points.len_eq
  rw [List.length_map] at hn
  rw [hn] at hi
  obtain ⟨xs, h1, h2⟩ := vector_shows b hb
  generalize b.layout = l at *
  subst h2
  have := h.unique (interleaved_shows_records hl h1)
  subst this
  have hr : rs[i]? = some rs[i] := List.getElem?_eq_getElem hi
  have hlen : (rs[i]).length = l.size := h1.getElem hr
  have hread : (Interleaved.ofRecords l rs).read ((Interleaved.ofRecords l rs).byteRangeOfPoint i) = .ok rs[i] :=
    Interleaved.getPointRef_ok h1 hr
  have hw := Interleaved.write_block h1 hi (data := f rs[i]) (by rw [hf, hlen])
  have hset : rs.modify i f = rs.set i (f rs[i]) := by
    rw [List.modify_eq_set_getElem?]
    simp [hr]
  refine ⟨_, ?_, by rw [hset]; exact interleaved_shows_records hl (h1.set (by rw [hf, hlen]) i)⟩
  show Interleaved.getPointMut _ i _ = _
  unfold Interleaved.getPointMut Interleaved.update
  rw [hread]
  simp only [bind, Except.bind]
  rw [assertThat_true (decide_eq_true hlen)]
  exact hw

/-- `push_point` appends exactly one point. -/
theorem C62_push_point {β : Type} [OwningBuffer β] [HoldsRecords β] (l : PointLayout) (hl : Solid l)
    (rs : List Bytes) (h : AllLen l.size rs) (v : Bytes) (hv : v.length = l.size) :
    PointView.pushPoint (HoldsRecords.ofRecords l rs : β) v = .ok (HoldsRecords.ofRecords l (rs ++ [v])) := by
  have hs := HoldsRecords.step_eq (β := β) hl h (.pushPoints v) (by simp [Op.wellFormed, hv])
  unfold Op.stepRecords at hs
  rw [if_pos (by trivial)] at hs
  refine Eq.trans hs ?_
  have : recordsOf l.size (v.length / l.size) v = [v] := by
    rw [hv, Nat.div_self hl.size_pos]
    simp [recordsOf, window_zero_full hv]
  simp only [Except.map, Op.onRecords]
  rw [this]

theorem allIn_eq {f : Nat → Out Bool} {g : Nat → Bool} : ∀ is : List Nat, (∀ i ∈ is, f i = .ok (g i)) →
    PointView.allIn f is = .ok (is.all g)
  | [], _ => rfl
  | i :: is, h => by
    simp only [PointView.allIn, h i (by simp), bind, Except.bind, List.all_cons]
    cases g i with
    | true => simpa using allIn_eq is fun j hj => h j (by simp [hj])
    | false => rfl

theorem allIn_zip {n k : Nat} {f g : Nat → Out Bytes} {rs ys : List Bytes} {e : Fault}
    (hf : Fetches n f rs e) (hg : Fetches k g ys e) (hlen : rs.length = ys.length)
    (teq : Bytes → Bytes → Bool) :
    PointView.allIn (fun i => do
      let x ← f i
      let y ← g i
      pure (teq x y)) (List.range rs.length) = .ok ((List.zipWith teq rs ys).all id) := by
  rw [allIn_eq (g := fun i => ((List.zipWith teq rs ys)[i]?).getD true)]
  · congr 1
    rw [Bool.eq_iff_iff, List.all_eq_true, List.all_eq_true]
    constructor
    · intro h x hx
      obtain ⟨i, hi, rfl⟩ := List.mem_iff_getElem.1 hx
      have := h i (by simp at hi ⊢; omega)
      rw [List.getElem?_eq_getElem hi] at this
      simpa using this
    · intro h i hi
      have hi' : i < (List.zipWith teq rs ys).length := by simp at hi ⊢; omega
      have := h _ (List.getElem_mem hi')
      rw [List.getElem?_eq_getElem hi']
      simpa using this
  · intro i hi
    rw [List.mem_range] at hi
    have e1 := hf.ok i rs[i] (List.getElem?_eq_getElem hi)
    have e2 := hg.ok i (ys[i]'(by omega)) (List.getElem?_eq_getElem (by omega))
    rw [e1, e2]
    simp only [bind, Except.bind, pure, Except.pure]
    rw [List.getElem?_eq_getElem (by simp; omega)]
    simp

/-- Comparing two views compares the numbers of points and then the points one by one. It does not
    matter how the two buffers store them. -/
theorem C62_views_equal {β γ : Type} [BorrowedBuffer β] [BorrowedBuffer γ] (b : β) (c : γ) (l : PointLayout)
    (ps qs : List Point) (hb : ShowsPoints b l ps) (hc : ShowsPoints c l qs) (teq : Bytes → Bytes → Bool) :
    ∃ rs ys : List Bytes, rs.map (pointOf l) = ps ∧ ys.map (pointOf l) = qs ∧
      PointView.eq b c l teq =
        .ok (decide (rs.length = ys.length) && (List.zipWith teq rs ys).all id) := by
  obtain ⟨rs, _, h2, h3⟩ := fetches_points hb
  obtain ⟨ys, _, g2, g3⟩ := fetches_points hc
  refine ⟨rs, ys, h2, g2, ?_⟩
  unfold PointView.eq
  rw [h3.len_eq, g3.len_eq]
  by_cases hlen : rs.length = ys.length
  · rw [if_neg (by simpa using hlen), decide_eq_true hlen, Bool.true_and]
    exact allIn_zip h3 g3 hlen teq
  · rw [if_pos (by simpa using hlen), decide_eq_false hlen]
    rfl

/-- `view_attribute::<T>(d)` panics exactly when `d` is not an attribute of the layout or `T` does not
    have its datatype. -/
theorem C62_attribute_view_checks {β : Type} [BorrowedBuffer β] (b : β) (l : PointLayout) (hl : Solid l)
    (ps : List Point) (h : ShowsPoints b l ps) (dt : DataType) (d : AttrDef) :
    (dt = d.datatype → ∀ m ∈ l.attributes, m.definition = d → AttributeView.new b dt d = .ok ⟨dt, m⟩) ∧
    (¬ (dt = d.datatype ∧ d ∈ l.attributes.map Member.definition) →
      AttributeView.new b dt d = .error .panic) := by
  unfold AttributeView.new
  rw [h.layout_eq]
  constructor
  · rintro hdt m hm rfl
    rw [assertThat_true (decide_eq_true hdt), lookup_member hl hm]
    rfl
  · intro hn
    by_cases hdt : dt = d.datatype
    · rw [assertThat_true (decide_eq_true hdt), getAttribute_eq, find_def_none fun hc => hn ⟨hdt, hc⟩]
      rfl
    · rw [assertThat_false (decide_eq_false hdt)]
      rfl

/-- `at` on an attribute view is `get_attribute`. -/
theorem C62_attribute_at {β : Type} [BorrowedBuffer β] (b : β) (l : PointLayout)
    (ps : List Point) (h : ShowsPoints b l ps) (m : Member) (hm : m ∈ l.attributes) (i : Nat)
    (data : Bytes) (hd : data.length = m.size) :
    AttributeView.get b ⟨m.datatype, m⟩ i = getAttribute b m.definition i data := by
  rw [h.getAttribute_eq _ _ _ hd]
  exact h.getAttributeUnchecked_eq m i _ hm (by simp [zeros]; rfl)

/-- `at_ref` on an attribute view of a columnar buffer is `get_attribute`. -/
theorem C62_attribute_at_ref {β : Type} [ColumnarBuffer β] (b : β) (l : PointLayout) (hl : Solid l)
    (ps : List Point) (h : ShowsColumns b l ps) (m : Member) (hm : m ∈ l.attributes) (i : Nat)
    (data : Bytes) (hd : data.length = m.size) :
    AttributeView.atRef b ⟨m.datatype, m⟩ i = getAttribute b m.definition i data := by
  rw [h.points.getAttribute_eq _ _ _ hd]
  unfold AttributeView.atRef
  rw [h.getAttributeRef_eq]
  obtain ⟨xs, hx, ha⟩ := column_some hl h.points hm
  rw [(column_get hx).2 i]
  cases hr : xs[i]? with
  | none => rfl
  | some r =>
    simp only [answer, bind, Except.bind]
    have : r.length = m.datatype.size := ha.getElem hr
    rw [assertThat_true (decide_eq_true this)]
    rfl

/-- Two views of the same attribute are equal exactly when they have as many values and the values
    are equal one by one, however the two buffers store them. -/
theorem C62_attribute_views_equal {β γ : Type} [BorrowedBuffer β] [BorrowedBuffer γ] (b : β) (c : γ)
    (l l' : PointLayout) (hl : Solid l) (hl' : Solid l') (ps qs : List Point) (hb : ShowsPoints b l ps)
    (hc : ShowsPoints c l' qs) (m m' : Member) (hm : m ∈ l.attributes) (hm' : m' ∈ l'.attributes)
    (hd : m.definition = m'.definition) (teq : Bytes → Bytes → Bool) :
    ∃ xs ys : List Bytes, (∀ i, xs[i]? = value? ps m.definition i) ∧
      (∀ i, ys[i]? = value? qs m.definition i) ∧ xs.length = ps.length ∧ ys.length = qs.length ∧
      AttributeView.eq b ⟨m.datatype, m⟩ c ⟨m'.datatype, m'⟩ teq =
        .ok (decide (xs.length = ys.length) && (List.zipWith teq xs ys).all id) := by
  obtain ⟨xs, hx, _⟩ := column_some hl hb hm
  obtain ⟨ys, hy, _⟩ := column_some hl' hc hm'
  have fx := fetches_column hb hm hx
  have fy := fetches_column hc hm' hy
  refine ⟨xs, ys, fun i => ((column_get hx).2 i).symm, fun i => by rw [hd]; exact ((column_get hy).2 i).symm,
    (column_get hx).1, (column_get hy).1, ?_⟩
  unfold AttributeView.eq
  rw [fx.len_eq, fy.len_eq]
  by_cases hlen : xs.length = ys.length
  · rw [if_pos ⟨hlen, hd⟩, decide_eq_true hlen, Bool.true_and]
    exact allIn_zip fx fy hlen teq
  · rw [if_neg (fun h => hlen h.1), decide_eq_false hlen]
    rfl

/-- Views of different attributes are never equal. -/
theorem C62_different_attributes {β γ : Type} [BorrowedBuffer β] [BorrowedBuffer γ] (b : β) (c : γ)
    (v w : AttributeView) (hd : v.member.definition ≠ w.member.definition) (teq : Bytes → Bytes → Bool) :
    AttributeView.eq b v c w teq = .ok false := by
  unfold AttributeView.eq
  rw [if_neg fun h => hd h.2]

example : PointView.new (⟨[], exLayout, 0⟩ : VectorBuffer) exLayout = .ok () ∧
    PointView.get (⟨[1, 9, 2, 3, 4, 9, 5, 0, 1, 2, 7, 0], exLayout, 2⟩ : VectorBuffer) exLayout 1 =
      .ok [5, 0, 1, 2, 7, 0] ∧
    AttributeView.new (⟨[], exLayout, 0⟩ : VectorBuffer) .u16 ⟨"b", .u16⟩ = .ok ⟨.u16, ⟨⟨"b", .u16⟩, 2⟩⟩ := by
  refine ⟨by decide, by decide, by rfl⟩

end Pasture.Props
