import Verif.Model.AttributeMut
import Verif.Props.UntypedPoint

/-!
# Property C62, continued: assigning through the mutable references of an attribute view
-/

namespace Pasture.Props

open Spec BorrowedBuffer BorrowedMutBuffer

theorem overwrite_window_self {r : Bytes} {a n : Nat} (h : a + n ≤ r.length) : overwrite r a (window r a n) = r := by
  unfold overwrite
  rw [length_window h]
  unfold window
  rw [List.append_assoc, ← List.drop_drop, List.take_append_drop, List.take_append_drop]

theorem transformed_records {l : PointLayout} (hl : Solid l) {rs : List Bytes} (h : AllLen l.size rs) {m : Member}
    (hm : m ∈ l.attributes) (f : Nat → Bytes → Bytes) (hf : ∀ i v, v.length = m.size → (f i v).length = m.size) :
    (rs.mapIdx fun i r => overwrite r m.offset (f i (window r m.offset m.size))).map (pointOf l) =
      transformed m.definition f (rs.map (pointOf l)) := by
  unfold transformed
  apply List.ext_getElem (by simp)
  intro i h1 h2
  simp at h1
  simp only [List.getElem_map, List.getElem_mapIdx, pointOf_get, find_def_mem hl hm, Option.map_some]
  have hi := hl.inside m hm
  have hr : (rs[i]).length = l.size := h _ (List.getElem_mem h1)
  exact pointOf_overwrite hl hr hm (hf _ _ (length_window (by omega)))

/-- `at_mut` of an attribute view: assigning through the reference changes that attribute of that point and nothing
    else; past the end it panics. -/
theorem C62_attribute_at_mut (b : HashMapBuffer) (hl : Solid b.layout) (hb : HashMapConsistent b)
    (ps : List Point) (h : ShowsPoints b b.layout ps) (m : Member) (hm : m ∈ b.layout.attributes) (i : Nat)
    (f : Bytes → Bytes) (hf : ∀ v, v.length = m.size → (f v).length = m.size) :
    (i < len b → ∃ c, AttributeView.atMut b ⟨m.datatype, m⟩ i f = .ok c ∧
      ShowsPoints c b.layout (transformed m.definition (fun k v => if k = i then f v else v) ps)) ∧
    (len b ≤ i → AttributeView.atMut b ⟨m.datatype, m⟩ i f = .error .panic) := by
  have hn := h.len_eq
  obtain ⟨rs, h1, h2⟩ := hashmap_shows b hl hb
  rw [hn]
  generalize b.layout = l at *
  subst h2
  have := showsPoints_unique h (HashMapBuffer.shows_points hl h1)
  subst this
  rw [List.length_map]
  have hi := hl.inside m hm
  have hg := colsOf_get hl (fun m => (vals m rs).flatten) hm
  constructor
  · intro hlt
    have hr : rs[i]? = some rs[i] := List.getElem?_eq_getElem hlt
    have hrl : (rs[i]).length = l.size := h1.getElem hr
    have hw : (window rs[i] m.offset m.size).length = m.size := length_window (by omega)
    have hread := HashMapBuffer.col_get_ok hl h1 hm hr
    refine ⟨HashMapBuffer.ofRecords l (rs.modify i fun r => overwrite r m.offset (f (window rs[i] m.offset m.size))),
      ?_, ?_⟩
    · show HashMapBuffer.getAttributeMut _ m.definition i _ = _
      refine Eq.trans ?_ (HashMapBuffer.setAttribute_ok hl h1 hm hlt (hf _ hw))
      simp only [HashMapBuffer.getAttributeMut, HashMapBuffer.setAttribute, hg, expectSome, bind, Except.bind]
      rw [hread]
      simp only
      rw [assertThat_true (decide_eq_true (show _ = m.datatype.size from hw))]
      rfl
    · rw [← transformed_records hl h1 hm (fun k v => if k = i then f v else v) (by
        intro k v hv
        split
        · exact hf v hv
        · exact hv)]
      have e : (rs.mapIdx fun k r => overwrite r m.offset (if k = i then f (window r m.offset m.size)
          else window r m.offset m.size)) = rs.modify i fun r => overwrite r m.offset (f (window rs[i] m.offset m.size)) := by
        apply List.ext_getElem (by simp)
        intro k hk hk'
        simp only [List.getElem_mapIdx, List.getElem_modify]
        by_cases hki : k = i
        · subst hki; simp
        · rw [if_neg hki, if_neg (Ne.symm hki)]
          have hkl : (rs[k]'(by simpa using hk)).length = l.size := h1 _ (List.getElem_mem _)
          exact overwrite_window_self (by omega)
      rw [e]
      refine HashMapBuffer.shows_points hl ?_
      rw [List.modify_eq_set_getElem?, hr]
      exact h1.set (by rw [length_overwrite (by rw [hf _ hw]; omega), hrl]) i
  · intro hge
    have hread := HashMapBuffer.col_get_panic hl h1 hm hge
    show HashMapBuffer.getAttributeMut _ m.definition i _ = _
    simp only [HashMapBuffer.getAttributeMut, hg, expectSome, bind, Except.bind]
    rw [hread]

/-- A loop that assigns through every reference of `iter_mut()` of an attribute view changes that attribute of every
    point and nothing else. -/
theorem C62_attribute_for_each_mut (b : HashMapBuffer) (hl : Solid b.layout) (hb : HashMapConsistent b)
    (ps : List Point) (h : ShowsPoints b b.layout ps) (m : Member) (hm : m ∈ b.layout.attributes)
    (f : Bytes → Bytes) (hf : ∀ v, v.length = m.size → (f v).length = m.size) :
    ∃ c, AttributeView.forEachMut b ⟨m.datatype, m⟩ f = .ok c ∧
      ShowsPoints c b.layout (transformed m.definition (fun _ => f) ps) := by
  have hn := h.len_eq
  obtain ⟨rs, h1, h2⟩ := hashmap_shows b hl hb
  generalize b.layout = l at *
  subst h2
  have := showsPoints_unique h (HashMapBuffer.shows_points hl h1)
  subst this
  rw [List.length_map] at hn
  have hi := hl.inside m hm
  have ha := vals_allLen h1 hi
  have hq : AllLen m.size ((vals m rs).map f) := by
    intro r hr
    obtain ⟨x, hx, rfl⟩ := List.mem_map.1 hr
    exact hf _ (ha x hx)
  have hlen : ((vals m rs).map f).length = rs.length := by simp [vals_length]
  refine ⟨_, HashMapBuffer.getAttributeRangeMut_ok hl h1 hm (Nat.zero_le _) (Nat.le_of_eq hn)
    (data := ((vals m rs).map f).flatten) ?_ ?_, ?_⟩
  · rw [hn, List.drop_zero, Nat.sub_zero, ← vals_length m rs, List.take_length]
    have hc : castSlice m.datatype.size (vals m rs).flatten = .ok (vals m rs) :=
      castSlice_blocks ha (hl.positive m hm)
    rw [hc]
    simp only [bind, Except.bind]
    have := forLoop_set f (vals m rs).length (vals m rs) (Nat.le_refl _)
    simp only [bind, Except.bind] at this
    rw [this]
    simp [pure, Except.pure]
  · rw [hq.flatten_length, hlen, hn, Nat.sub_zero]
  · rw [← transformed_records hl h1 hm (fun _ => f) fun _ => hf]
    have e : HashMapBuffer.setAttrs m 0 (len (HashMapBuffer.ofRecords l rs)) ((vals m rs).map f).flatten rs =
        rs.mapIdx fun _ r => overwrite r m.offset (f (window r m.offset m.size)) := by
      rw [hn]
      apply List.ext_getElem (by simp)
      intro k hk hk'
      have hk2 : k < rs.length := by simpa using hk'
      simp only [List.getElem_mapIdx]
      rw [if_pos ⟨Nat.zero_le _, hk2⟩, Nat.sub_zero]
      have hb := window_block hq (i := k) (r := f (window rs[k] m.offset m.size)) (by
        simp [vals, List.getElem?_eq_getElem hk2])
      rw [hb]
    rw [e]
    refine HashMapBuffer.shows_points hl ?_
    intro r hr
    rw [List.mem_mapIdx] at hr
    obtain ⟨k, hk, rfl⟩ := hr
    have hrl : (rs[k]).length = l.size := h1 _ (List.getElem_mem hk)
    rw [length_overwrite (by rw [hf _ (length_window (by omega))]; omega), hrl]

/-- Non-vacuity: the second point's attribute is overwritten through its reference, or all are reversed. -/
example : let b : HashMapBuffer :=
      ⟨[(⟨"a", .u8⟩, [5, 6, 7]), (⟨"b", .u16⟩, [1, 2, 3, 4, 5, 6]), (⟨"c", .u8⟩, [7, 8, 9])], exLayout, 3⟩
    (AttributeView.atMut b ⟨.u16, ⟨⟨"b", .u16⟩, 2⟩⟩ 1 (fun _ => [8, 9])).map (·.columns) =
      .ok [(⟨"a", .u8⟩, [5, 6, 7]), (⟨"b", .u16⟩, [1, 2, 8, 9, 5, 6]), (⟨"c", .u8⟩, [7, 8, 9])] ∧
    (AttributeView.forEachMut b ⟨.u16, ⟨⟨"b", .u16⟩, 2⟩⟩ List.reverse).map (·.columns) =
      .ok [(⟨"a", .u8⟩, [5, 6, 7]), (⟨"b", .u16⟩, [2, 1, 4, 3, 6, 5]), (⟨"c", .u8⟩, [7, 8, 9])] := by decide

end Pasture.Props
