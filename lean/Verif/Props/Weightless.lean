import Verif.Lemmas.Weightless
import Verif.Model.Views

/-!
# C100: points without data are counted like all others
-/

namespace Pasture.Props

open Spec BorrowedBuffer

variable {l : PointLayout}

/-- Such buffers hold the points they say they hold. -/
theorem C100_holds (hl : Weightless l) :
    (∀ b : VectorBuffer, b.layout = l → VectorConsistent b → HoldsPoints b l b.length) ∧
      (∀ b : HashMapBuffer, b.layout = l → HashMapConsistent b → HoldsPoints b l b.length) := by
  refine ⟨fun b hb hc => ?_, fun b hb hc => ?_⟩
  · refine ⟨hb, rfl, fun i _ => ?_⟩
    rw [bare_vector hl hb hc]
    exact bareVector_get hl _ i
  · refine ⟨hb, rfl, fun i _ => ?_⟩
    rw [bare_columns hl hb hc]
    exact bareColumns_get hl _ i

/-- **C100 in part**, `resize` and `swap`: as for other points, and the buffer stays consistent. -/
theorem C100_resize_partial (hl : Weightless l) (n : Nat) :
    (∀ b : VectorBuffer, b.layout = l → VectorConsistent b →
      HoldsPoints (VectorBuffer.resize b n) l n ∧ VectorConsistent (VectorBuffer.resize b n) ∧
      ∀ i < b.length, ∀ j < b.length, Interleaved.swap b i j = .ok b) ∧
    (∀ b : HashMapBuffer, b.layout = l → HashMapConsistent b →
      HoldsPoints (HashMapBuffer.resize b n) l n ∧ HashMapConsistent (HashMapBuffer.resize b n) ∧
      ∀ i < b.length, ∀ j < b.length, HashMapBuffer.swap b i j = .ok b) := by
  refine ⟨fun b hb hc => ?_, fun b hb hc => ?_⟩
  · rw [bare_vector hl hb hc, bareVector_resize hl]
    exact ⟨⟨rfl, rfl, fun i _ => bareVector_get hl n i⟩, by show 0 = n * l.size; rw [hl.size, Nat.mul_zero],
      fun i hi j hj => bareVector_swap hl hi hj⟩
  · rw [bare_columns hl hb hc, bareColumns_resize hl]
    exact ⟨⟨rfl, rfl, fun i _ => bareColumns_get hl n i⟩, columns_consistent hl n,
      fun i hi j hj => bareColumns_swap hl hi hj⟩

section
variable {γ : Type} [BorrowedBuffer γ] {other : γ} {n : Nat}

theorem append_bareVector (hl : Weightless l) (ho : HoldsPoints other l n) (k : Nat) :
    append (bareVector l k) other = .ok (bareVector l (k + n)) := by
  unfold append
  have h1 : decide (layout (bareVector l k) = layout other) = true := decide_eq_true ho.layout.symm
  rw [h1, ho.len]
  show Except.bind (forLoop (List.range n) (VectorBuffer.resize (bareVector l k) (k + n), zeros l.size) _) _ = _
  rw [bareVector_resize hl, hl.size, forLoop_same]
  · rfl
  · intro i hi
    show Except.bind (getPoint other i []) _ = _
    rw [ho.read i (List.mem_range.1 hi)]
    show Except.bind (Interleaved.setPoint (bareVector l (k + n)) (k + i) []) _ = _
    rw [bareVector_set hl]
    rfl

theorem append_bareColumns (hl : Weightless l) (ho : HoldsPoints other l n) (k : Nat) :
    append (bareColumns l k) other = .ok (bareColumns l (k + n)) := by
  unfold append
  have h1 : decide (layout (bareColumns l k) = layout other) = true := decide_eq_true ho.layout.symm
  rw [h1, ho.len]
  show Except.bind (forLoop (List.range n) (HashMapBuffer.resize (bareColumns l k) (k + n), zeros l.size) _) _ = _
  rw [bareColumns_resize hl, hl.size, forLoop_same]
  · rfl
  · intro i hi
    show Except.bind (getPoint other i []) _ = _
    rw [ho.read i (List.mem_range.1 hi)]
    show Except.bind (HashMapBuffer.setPoint (bareColumns l (k + n)) (k + i) []) _ = _
    rw [bareColumns_set hl]
    rfl

/-- **C100 in part**, `append`: the points of both buffers. Missing: `append_interleaved`, which is to do the same
    (`C100_append_interleaved_violated`). -/
theorem C100_append_partial (hl : Weightless l) (ho : HoldsPoints other l n) :
    (∀ b : VectorBuffer, b.layout = l → VectorConsistent b →
      ∃ b', append b other = .ok b' ∧ HoldsPoints b' l (b.length + n) ∧ VectorConsistent b') ∧
    (∀ b : HashMapBuffer, b.layout = l → HashMapConsistent b →
      ∃ b', append b other = .ok b' ∧ HoldsPoints b' l (b.length + n) ∧ HashMapConsistent b') := by
  refine ⟨fun b hb hc => ⟨bareVector l (b.length + n), ?_, ?_, ?_⟩, fun b hb hc => ⟨bareColumns l (b.length + n), ?_, ?_, ?_⟩⟩
  · conv => lhs; rw [bare_vector hl hb hc]
    exact append_bareVector hl ho _
  · exact ⟨rfl, rfl, fun i _ => bareVector_get hl _ i⟩
  · show 0 = (b.length + n) * l.size; rw [hl.size, Nat.mul_zero]
  · conv => lhs; rw [bare_columns hl hb hc]
    exact append_bareColumns hl ho _
  · exact ⟨rfl, rfl, fun i _ => bareColumns_get hl _ i⟩
  · exact columns_consistent hl _

end

/-- **C100 in part**, `append_columnar`: as `append`. -/
theorem C100_append_columnar_partial (hl : Weightless l) (other : HashMapBuffer) (hol : other.layout = l)
    (ho : HashMapConsistent other) :
    (∀ b : VectorBuffer, b.layout = l → VectorConsistent b →
      ∃ b', VectorBuffer.appendColumnar b other = .ok b' ∧ HoldsPoints b' l (b.length + other.length)) ∧
    (∀ b : HashMapBuffer, b.layout = l → HashMapConsistent b →
      ∃ b', HashMapBuffer.appendColumnar b other = .ok b' ∧ HoldsPoints b' l (b.length + other.length)) := by
  obtain ⟨n, hn⟩ : ∃ n, n = other.length := ⟨_, rfl⟩
  have hother := bare_columns hl hol ho
  rw [← hn] at hother ⊢
  subst hother
  refine ⟨fun b hb hc => ⟨bareVector l (b.length + n), ?_, ?_⟩, fun b hb hc => ⟨bareColumns l (b.length + n), ?_, ?_⟩⟩
  · rw [bare_vector hl hb hc]
    unfold VectorBuffer.appendColumnar
    have h1 : decide ((bareVector l b.length).layout = layout (bareColumns l n)) = true := decide_eq_true rfl
    rw [h1]
    show forLoop (List.range n) (VectorBuffer.resize (bareVector l b.length) (b.length + n)) _ = _
    rw [bareVector_resize hl]
    apply forLoop_same
    intro i _
    have hs : (bareVector l (b.length + n)).layout.size = 0 := hl.size
    unfold Interleaved.getPointMut Interleaved.update Interleaved.read Interleaved.byteRangeOfPoint
    rw [hs, Nat.mul_zero, Nat.mul_zero]
    show Except.bind (HashMapBuffer.getPoint (bareColumns l n) i []) _ = _
    rw [bareColumns_get hl]
    rfl
  · exact ⟨rfl, rfl, fun i _ => bareVector_get hl _ i⟩
  · rw [bare_columns hl hb hc]
    unfold HashMapBuffer.appendColumnar
    have h1 : decide ((bareColumns l b.length).layout = layout (bareColumns l n)) = true := decide_eq_true rfl
    rw [h1]
    show Except.bind (forLoop l.attributes (bareColumns l b.length).columns _) _ = _
    rw [forLoop_same]
    · rfl
    · intro m hm
      have h3 : m.definition.size = 0 := (member_bare hl hm).2
      rw [bare_get hm]
      show Except.bind (HashMapBuffer.getAttributeRangeRef (bareColumns l n) m.definition ⟨0, n⟩) _ = _
      unfold HashMapBuffer.getAttributeRangeRef HashMapBuffer.byteRangeOf
      rw [bare_get hm, h3, Nat.mul_zero, Nat.mul_zero]
      show Except.ok ((bareColumns l b.length).columns.set m.definition []) = _
      rw [bare_set]
  · exact ⟨rfl, rfl, fun i _ => bareColumns_get hl _ i⟩

theorem push_panics {b : HashMapBuffer} (hb : b.layout.size = 0) (bytes : Bytes) : b.pushPoints bytes = panicked := by
  have h2 : decide (b.layout.size ≠ 0) = false := decide_eq_false (by rw [hb]; simp)
  unfold HashMapBuffer.pushPoints
  show Except.bind (assertThat (decide (b.layout.size ≠ 0))) _ = _
  rw [h2]
  rfl

/-- **C100 is violated** by `append_interleaved`, for all such layouts and all buffers: the points are lost if they are
    appended to a `VectorBuffer`, and appending them to a `HashMapBuffer` panics. -/
theorem C100_append_interleaved_violated (hl : Weightless l) (other : VectorBuffer) (hol : other.layout = l)
    (ho : VectorConsistent other) :
    (∀ b : VectorBuffer, b.layout = l → VectorBuffer.appendInterleaved b other = .ok b) ∧
      (∀ b : HashMapBuffer, b.layout = l → HashMapBuffer.appendInterleaved b other = panicked) := by
  obtain ⟨n, hn⟩ : ∃ n, n = other.length := ⟨_, rfl⟩
  have hother := bare_vector hl hol ho
  rw [← hn] at hother
  subst hother
  have hr : InterleavedBuffer.getPointRangeRef (bareVector l n) ⟨0, len (bareVector l n)⟩ = .ok [] := by
    show Interleaved.getPointRangeRef (bareVector l n) ⟨0, n⟩ = _
    have hs : (bareVector l n).layout.size = 0 := hl.size
    unfold Interleaved.getPointRangeRef Interleaved.read Interleaved.byteRangeOfPoints
    rw [hs, Nat.mul_zero, Nat.mul_zero]
    rfl
  refine ⟨fun b hb => ?_, fun b hb => ?_⟩
  · unfold VectorBuffer.appendInterleaved
    have h1 : decide (b.layout = layout (bareVector l n)) = true := decide_eq_true hb
    rw [h1, hr]
    show VectorBuffer.pushPoints b [] = _
    unfold VectorBuffer.pushPoints
    rw [if_pos (by rw [hb]; exact hl.size)]
    rfl
  · unfold HashMapBuffer.appendInterleaved
    have h1 : decide (b.layout = layout (bareVector l n)) = true := decide_eq_true hb
    rw [h1, hr]
    exact push_panics (by rw [hb]; exact hl.size) []

/-- **C100 in part**, `filter` of a `HashMapBuffer`, to both kinds of buffers: the points the predicate selects. -/
theorem C100_filter_partial (hl : Weightless l) (b : HashMapBuffer) (hb : b.layout = l) (hc : HashMapConsistent b)
    (p : Nat → Bool) :
    (∃ b', b.filterToHashMap p = .ok b' ∧ HoldsPoints b' l ((List.range b.length).filter p).length) ∧
      (∃ b', b.filterToVector p = .ok b' ∧ HoldsPoints b' l ((List.range b.length).filter p).length) := by
  obtain ⟨n, hn⟩ : ∃ n, n = b.length := ⟨_, rfl⟩
  have hbare := bare_columns hl hb hc
  rw [← hn] at hbare ⊢
  subst hbare
  obtain ⟨k, hk⟩ : ∃ k, k = ((List.range n).filter p).length := ⟨_, rfl⟩
  have hm : ((bareColumns l n).matching p).length = k := hk.symm
  rw [← hk]
  have hle : decide (k ≤ k) = true := decide_eq_true (Nat.le_refl k)
  refine ⟨⟨bareColumns l k, ?_, rfl, rfl, fun i _ => bareColumns_get hl _ i⟩,
    ⟨bareVector l k, ?_, rfl, rfl, fun i _ => bareVector_get hl _ i⟩⟩
  · unfold HashMapBuffer.filterToHashMap
    rw [hm]
    show (bareColumns l n).filterIntoColumnar (HashMapBuffer.resize (bareColumns l 0) k) p (some k) = _
    rw [bareColumns_resize hl]
    unfold HashMapBuffer.filterIntoColumnar
    have h1 : decide (layout (bareColumns l k) = (bareColumns l n).layout) = true := decide_eq_true rfl
    rw [h1]
    show Except.bind (assertThat (decide (k ≤ k))) _ = _
    rw [hle]
    show forLoop l.attributes (bareColumns l k) _ = _
    apply forLoop_same
    intro m hmem
    have h3 : m.definition.size = 0 := (member_bare hl hmem).2
    have h3' : m.size = 0 := h3
    unfold HashMapBuffer.getAttributeRangeRef HashMapBuffer.byteRangeOf
    rw [bare_get hmem, h3, Nat.mul_zero, Nat.mul_zero]
    show HashMapBuffer.getAttributeRangeMut (bareColumns l k) m.definition ⟨0, k⟩ _ = _
    unfold HashMapBuffer.getAttributeRangeMut HashMapBuffer.byteRangeOf
    rw [bare_get hmem, h3, Nat.mul_zero, Nat.mul_zero]
    show Except.bind (forLoop ((bareColumns l n).matching p).zipIdx ([] : Bytes) _) _ = _
    rw [forLoop_same]
    · show Except.ok { bareColumns l k with columns := (bareColumns l k).columns.set m.definition [] } = _
      rw [bare_set]
    · rintro ⟨si, di⟩ _
      simp only [h3', Nat.mul_zero]
      rfl
  · unfold HashMapBuffer.filterToVector
    rw [hm]
    show (bareColumns l n).filterIntoInterleaved (VectorBuffer.resize (bareVector l 0) k) p (some k) = _
    rw [bareVector_resize hl]
    unfold HashMapBuffer.filterIntoInterleaved
    have h1 : decide (layout (bareVector l k) = (bareColumns l n).layout) = true := decide_eq_true rfl
    rw [h1]
    show Except.bind (assertThat (decide (k ≤ k))) _ = _
    rw [hle]
    show Interleaved.getPointRangeMut (bareVector l k) ⟨0, k⟩ _ = _
    have hs : (bareVector l k).layout.size = 0 := hl.size
    unfold Interleaved.getPointRangeMut Interleaved.update Interleaved.read Interleaved.byteRangeOfPoints
    rw [hs, Nat.mul_zero, Nat.mul_zero]
    show Except.bind (forLoop l.attributes ([] : Bytes) _) _ = _
    rw [forLoop_same]
    · rfl
    · intro m hmem
      obtain ⟨h0, h3'⟩ := member_bare hl hmem
      have h3 : m.definition.size = 0 := h3'
      unfold HashMapBuffer.getAttributeRangeRef HashMapBuffer.byteRangeOf
      rw [bare_get hmem, h3, Nat.mul_zero, Nat.mul_zero]
      show forLoop ((bareColumns l n).matching p).zipIdx ([] : Bytes) _ = _
      apply forLoop_same
      rintro ⟨si, di⟩ _
      have hs' : (bareColumns l n).layout.size = 0 := hl.size
      simp only [h3', h0, hs', Nat.mul_zero]
      rfl

/-- **C100 in part**, collecting: a `VectorBuffer` made from an iterator that knows the number of its points has them
    all. Missing: other iterators and `HashMapBuffer` (`C100_collect_violated`). -/
theorem C100_collect_partial (hl : Weightless l) (n : Nat) :
    ∃ b, VectorBuffer.fromIter l (List.replicate n []) (some n) = .ok b ∧ HoldsPoints b l n := by
  refine ⟨bareVector l n, ?_, rfl, rfl, fun i _ => bareVector_get hl _ i⟩
  show forLoop (List.replicate n ([] : Bytes)).zipIdx (⟨zeros (n * l.size), l, n⟩ : VectorBuffer) _ = _
  rw [hl.size, Nat.mul_zero]
  show forLoop (List.replicate n ([] : Bytes)).zipIdx (bareVector l n) _ = _
  apply forLoop_same
  rintro ⟨x, i⟩ hx
  have : x = [] := List.eq_of_mem_replicate (List.fst_mem_of_mem_zipIdx hx)
  subst this
  exact bareVector_set hl n i

/-- **C100 is violated** by collecting: if the iterator does not know the number of its points, a `VectorBuffer` made
    from any number of points is empty, and a `HashMapBuffer` cannot be made from any points at all. -/
theorem C100_collect_violated (hl : Weightless l) (n : Nat) :
    VectorBuffer.fromIter l (List.replicate n []) none = .ok (VectorBuffer.newFromLayout l) ∧
      HashMapBuffer.fromIter l (List.replicate (n + 1) []) = panicked := by
  constructor
  · show forLoop (List.replicate n ([] : Bytes)) (VectorBuffer.newFromLayout l) _ = _
    apply forLoop_same
    intro x hx
    rw [List.eq_of_mem_replicate hx]
    unfold VectorBuffer.pushPoints
    rw [if_pos (by exact hl.size)]
    rfl
  · unfold HashMapBuffer.fromIter
    rw [List.replicate_succ, forLoop_cons]
    rw [push_panics (b := HashMapBuffer.newFromLayout l) hl.size]
    rfl

/-- **C100 is violated** by raw views of attributes of size zero in columns, in whatever layout: they cannot tell their
    length. -/
theorem C100_raw_view_violated (b : HashMapBuffer) (d : AttrDef) (hd : d.size = 0) (v : RawAttributeView)
    (hv : RawAttributeView.fromColumnar b d = .ok v) : v.len = panicked := by
  unfold RawAttributeView.fromColumnar at hv
  cases hr : ColumnarBuffer.getAttributeRangeRef b d ⟨0, len b⟩ with
  | error e => rw [hr] at hv; cases hv
  | ok data =>
  rw [hr] at hv
  cases hv
  unfold RawAttributeView.len
  have : decide (d.size ≠ 0) = false := decide_eq_false (by rw [hd]; simp)
  show Except.bind (assertThat (decide (d.size ≠ 0))) _ = _
  rw [this]
  rfl

/-- **C100 is violated** by the attribute pusher: with an attribute of size zero, whatever else is in the layout, no
    points can be pushed, because the values pushed for it take no memory and are taken for missing ones. -/
theorem C100_pusher_violated (p : AttributePusher) (n : Nat) (hn : p.numNewPoints = some (n + 1)) (d : AttrDef)
    (hd : (d, []) ∈ p.storage) : p.done = panicked := by
  unfold AttributePusher.done
  rw [hn]
  have : (p.storage.all fun x => !x.2.isEmpty) = false := by
    rw [List.all_eq_false]
    exact ⟨_, hd, by simp⟩
  show (if n + 1 = 0 then _ else _) = _
  rw [if_neg (by omega), this]
  rfl

/-- The empty layout, and one with an attribute of size zero. -/
def markLayout : PointLayout := ⟨[⟨⟨"mark", .byteArray 0⟩, 0⟩], 0, 1⟩

/-- Both are layouts without data, which one gets with `default` and `add_attribute`; three points in such buffers, and
    what the violations come to. -/
example : Weightless PointLayout.default ∧ Weightless markLayout ∧
    PointLayout.default.addAttribute ⟨"mark", .byteArray 0⟩ .default = .ok markLayout ∧
    (∃ b : HashMapBuffer, b = HashMapBuffer.resize (HashMapBuffer.newFromLayout markLayout) 3 ∧ HashMapConsistent b ∧
      HoldsPoints b markLayout 3) ∧
    (∃ a b c, a = VectorBuffer.resize (VectorBuffer.newFromLayout PointLayout.default) 3 ∧ HoldsPoints a PointLayout.default 3 ∧
      append a a = .ok b ∧ len b = 6 ∧ VectorBuffer.appendInterleaved a a = .ok c ∧ len c = 3) ∧
    (∃ p, (AttributePusher.new (HashMapBuffer.newFromLayout markLayout)).pushAttributeRange ⟨"mark", .byteArray 0⟩
        (.byteArray 0) [[], []] = .ok p ∧ p.done = panicked) := by
  have h1 : Weightless PointLayout.default := ⟨rfl, by decide⟩
  have h2 : Weightless markLayout := ⟨rfl, by decide⟩
  refine ⟨h1, h2, by decide, ⟨_, rfl, by decide, ?_⟩, ⟨_, bareVector PointLayout.default 6, bareVector PointLayout.default 3, rfl, ?_, ?_, rfl, ?_, rfl⟩, ⟨_, rfl, ?_⟩⟩
  · exact ((C100_resize_partial h2 3).2 _ rfl (by decide)).1
  · exact ((C100_resize_partial h1 3).1 _ rfl (by decide)).1
  · exact append_bareVector h1 (C100_holds h1 |>.1 (bareVector _ 3) rfl (by decide)) 3
  · exact (C100_append_interleaved_violated h1 (bareVector _ 3) rfl (by decide)).1 _ rfl
  · exact C100_pusher_violated _ 1 rfl ⟨"mark", .byteArray 0⟩ (by decide)

end Pasture.Props
