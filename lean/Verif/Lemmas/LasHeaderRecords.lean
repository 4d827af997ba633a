import Verif.Spec.LasHeaderRecords
import Verif.Props.LasWriter
import Verif.Props.LasPositions

/-!
# Lemmas: records of written LAS files
-/

namespace Pasture.Las

open Spec Flt Props

/-- The records in a file that contains them after `start` bytes. -/
theorem fileRecords_eq {n start : Nat} {recs : List Bytes} (h : AllLen (lasRecordLength n) recs) {pre post : Bytes}
    (hp : pre.length = start) : fileRecords n start recs.length (pre ++ recs.flatten ++ post) = recs := by
  apply List.ext_getElem?
  intro i
  unfold fileRecords
  rw [List.getElem?_map]
  by_cases hi : i < recs.length
  · rw [List.getElem?_range hi, List.getElem?_eq_getElem hi]
    have hb := window_block h (List.getElem?_eq_getElem hi)
    have hle : i * lasRecordLength n + lasRecordLength n ≤ recs.flatten.length := by
      rw [h.flatten_length, ← Nat.succ_mul]
      exact Nat.mul_le_mul_right _ hi
    show some (window _ (start + i * lasRecordLength n) _) = some _
    congr 1
    unfold window at hb ⊢
    rw [← List.drop_drop, List.append_assoc, List.drop_left' hp, List.drop_append_of_le_length (by omega),
      List.take_append_of_le_length (by rw [List.length_drop]; omega), hb]
  · rw [List.getElem?_eq_none (by simpa using Nat.le_of_not_lt hi), List.getElem?_eq_none (Nat.le_of_not_lt hi)]
    rfl

theorem mapM_cons_parts {α γ : Type} {f : α → Option γ} {x : α} {xs : List α} {ys : List γ} (h : (x :: xs).mapM f = some ys) :
    ∃ y ys', f x = some y ∧ xs.mapM f = some ys' ∧ ys = y :: ys' := by
  rw [List.mapM_cons] at h
  obtain ⟨y, hy, h⟩ := Option.bind_eq_some_iff.1 h
  obtain ⟨ys', hys, h⟩ := Option.bind_eq_some_iff.1 h
  cases h
  exact ⟨y, ys', hy, hys, rfl⟩

/-- A record starts with the position, the intensity and the flags. -/
theorem record_parts {n : Nat} (hn : n ≤ 10) {t : Transforms} {p : Point} (hp : Sized p) {r : Bytes}
    (h : storedRecord n t p = some r) :
    ∃ a b c rest, storedItem t p "LASLocalPosition" = some a ∧ a.length = 12 ∧ b.length = 2 ∧
      packBits (if n ≤ 5 then 1 else 2) (packedFields n) p = some c ∧ r = a ++ (b ++ (c ++ rest)) := by
  unfold storedRecord at h
  obtain ⟨bs, h1, rfl⟩ := Option.map_eq_some_iff.1 h
  have hlen := fun item hi b => storedItem_length hn (t := t) hp (item := item) hi (b := b)
  have hl : ∃ c rest, lasItems n = ("LASLocalPosition", 12) :: ("Intensity", 2) :: c :: rest ∧
      (∀ q, storedItem t q c.1 = packBits (if n ≤ 5 then 1 else 2) (packedFields n) q) := by
    match n, hn with
    | 0, _ | 1, _ | 2, _ | 3, _ | 4, _ | 5, _ | 6, _ | 7, _ | 8, _ | 9, _ | 10, _ => exact ⟨_, _, rfl, fun _ => rfl⟩
  obtain ⟨c, rest, hl, hc⟩ := hl
  rw [hl] at h1 hlen
  obtain ⟨x1, ys, e1, g1, rfl⟩ := mapM_cons_parts h1
  obtain ⟨x2, ys, e2, g2, rfl⟩ := mapM_cons_parts g1
  obtain ⟨x3, ys, e3, g3, rfl⟩ := mapM_cons_parts g2
  refine ⟨x1, x2, x3, ys.flatten, e1, ?_, ?_, ?_, rfl⟩
  · exact hlen _ (by simp) x1 e1
  · exact hlen ("Intensity", 2) (by simp) x2 e2
  · rw [← hc]; exact e3

theorem low_byte {k s : Nat} (hk : 0 < k) : leNat ((natLE k s).take 1) = s % 256 := by
  match k, hk with
  | k + 1, _ =>
    unfold natLE
    rw [List.take_succ_cons, List.take_zero]
    simp [leNat]

/-- The return number in a record: that of the point, reduced to the bits there are. -/
theorem record_return {n : Nat} (hn : n ≤ 10) {t : Transforms} {p : Point} (hp : Sized p) {r : Bytes}
    (h : storedRecord n t p = some r) :
    ∃ v, lasValue p "ReturnNumber" = some v ∧ recordReturn n r = leNat v % returnRange n := by
  obtain ⟨a, b, c, rest, _, ha, hb, hc, rfl⟩ := record_parts hn hp h
  obtain ⟨parts, h1, h2⟩ := Option.bind_eq_some_iff.1 hc
  cases h2
  have hw : leNat (window (a ++ (b ++ (natLE (if n ≤ 5 then 1 else 2) parts.sum ++ rest))) 14 1) = parts.sum % 256 := by
    unfold window
    have hlen : 1 ≤ (natLE (if n ≤ 5 then 1 else 2) parts.sum).length := by
      rw [natLE_length]; split <;> omega
    rw [← List.append_assoc, List.drop_left' (by rw [List.length_append]; omega), List.take_append_of_le_length hlen]
    exact low_byte (by split <;> omega)
  unfold recordReturn returnRange
  rw [hw]
  unfold packedFields at h1
  split at h1
  · rename_i h5
    rw [if_pos h5]
    obtain ⟨x, ys, hx, g1, rfl⟩ := mapM_cons_parts h1
    obtain ⟨v, hv, rfl⟩ := Option.map_eq_some_iff.1 hx
    refine ⟨v, hv, ?_⟩
    obtain ⟨x, ys, hx, g2, rfl⟩ := mapM_cons_parts g1
    obtain ⟨v2, _, rfl⟩ := Option.map_eq_some_iff.1 hx
    obtain ⟨x, ys, hx, g3, rfl⟩ := mapM_cons_parts g2
    obtain ⟨v3, _, rfl⟩ := Option.map_eq_some_iff.1 hx
    obtain ⟨x, ys, hx, g4, rfl⟩ := mapM_cons_parts g3
    obtain ⟨v4, _, rfl⟩ := Option.map_eq_some_iff.1 hx
    cases g4
    simp only [List.sum_cons, List.reverse_nil, List.sum_nil]
    omega
  · rename_i h5
    rw [if_neg h5]
    obtain ⟨x, ys, hx, g1, rfl⟩ := mapM_cons_parts h1
    obtain ⟨v, hv, rfl⟩ := Option.map_eq_some_iff.1 hx
    refine ⟨v, hv, ?_⟩
    obtain ⟨x, ys, hx, g2, rfl⟩ := mapM_cons_parts g1
    obtain ⟨v2, _, rfl⟩ := Option.map_eq_some_iff.1 hx
    obtain ⟨x, ys, hx, g3, rfl⟩ := mapM_cons_parts g2
    obtain ⟨v3, _, rfl⟩ := Option.map_eq_some_iff.1 hx
    obtain ⟨x, ys, hx, g4, rfl⟩ := mapM_cons_parts g3
    obtain ⟨v4, _, rfl⟩ := Option.map_eq_some_iff.1 hx
    obtain ⟨x, ys, hx, g5, rfl⟩ := mapM_cons_parts g4
    obtain ⟨v5, _, rfl⟩ := Option.map_eq_some_iff.1 hx
    obtain ⟨x, ys, hx, g6, rfl⟩ := mapM_cons_parts g5
    obtain ⟨v6, _, rfl⟩ := Option.map_eq_some_iff.1 hx
    cases g6
    simp only [List.sum_cons, List.reverse_nil, List.sum_nil]
    omega

/-- As many records as points have a return number, if the numbers fit. -/
theorem returns_stored {n : Nat} (hn : n ≤ 10) {t : Transforms} (k : Nat) :
    ∀ {ps : List Point} {recs : List Bytes}, (∀ p ∈ ps, Sized p) → ReturnsFit n ps → Stored n t ps recs →
    (withReturn k ps).length = (recs.filter fun r => recordReturn n r = k).length := by
  intro ps
  induction ps with
  | nil => intro recs _ _ h; cases h; rfl
  | cons p ps ih =>
    intro recs hs hf h
    unfold Stored at h
    rw [List.mapM_cons] at h
    obtain ⟨r, hr, h⟩ := Option.bind_eq_some_iff.1 h
    obtain ⟨rs, hrs, h⟩ := Option.bind_eq_some_iff.1 h
    cases h
    have := ih (fun p hp => hs p (List.mem_cons_of_mem _ hp)) (fun p hp => hf p (List.mem_cons_of_mem _ hp)) hrs
    obtain ⟨v, hv, e⟩ := record_return hn (hs p List.mem_cons_self) hr
    rw [Nat.mod_eq_of_lt (hf p List.mem_cons_self v hv)] at e
    unfold withReturn at this ⊢
    rw [List.filter_cons, List.filter_cons, hv, e]
    by_cases hk : leNat v = k
    · subst hk
      simp only [Option.map_some, decide_true, if_true, List.length_cons, this]
    · have h2 : ¬ (some (leNat v) = some k) := fun h => hk (Option.some.inj h)
      simp only [Option.map_some, hk, h2, decide_false, Bool.false_eq_true, if_false, this]

theorem recordInt_eq {rec : Bytes} {k : Nat} {z : Int} (hz : -2 ^ 31 ≤ z ∧ z < 2 ^ 31)
    (h : window rec (4 * k) 4 = writeNum .i32 (.int z)) : recordInt rec k = z := by
  have h2 := read_i32 hz
  rw [← h] at h2
  have h3 : intOfBits .i32 (leNat (window rec (4 * k) 4)) = z := Num.int.inj h2
  unfold intOfBits at h3
  unfold recordInt
  have hi : Prim.i32.hi = 2 ^ 31 - 1 := rfl
  generalize leNat (window rec (4 * k) 4) = u at h3 ⊢
  by_cases c : u < 2 ^ 31
  · rw [if_pos c]
    rw [if_pos (by rw [hi]; omega)] at h3
    exact h3
  · rw [if_neg c]
    rw [if_neg (by rw [hi]; omega)] at h3
    exact h3

/-- The coordinates in a record are the quantised ones of the point. -/
theorem record_ints {n : Nat} (hn : n ≤ 10) {t : Transforms} {p : Point} (hp : Sized p) {r : Bytes}
    (h : storedRecord n t p = some r) :
    ∃ q, lasPosition p = some q ∧ ∀ axis ∈ lasAxes, quantize (axis.2.2 t) (axis.2.1 q) = .ok (recordInt r axis.1) := by
  obtain ⟨a, b, c, rest, ha, hal, _, _, rfl⟩ := record_parts hn hp h
  obtain ⟨q, hq, hs⟩ := Option.bind_eq_some_iff.1 (show (lasPosition p).bind (storedPosition t) = some a from ha)
  obtain ⟨x, hx, hs⟩ := Option.bind_eq_some_iff.1 hs
  obtain ⟨y, hy, hs⟩ := Option.bind_eq_some_iff.1 hs
  obtain ⟨z, hz, hs⟩ := Option.bind_eq_some_iff.1 hs
  cases hs
  have co : ∀ {a x c}, storedCoordinate a x = some c → ∃ z, quantize a x = .ok z ∧ c = writeNum .i32 (.int z) := by
    intro a x c hc
    unfold storedCoordinate at hc
    obtain ⟨z, hz, rfl⟩ := Option.map_eq_some_iff.1 hc
    cases hq : quantize a x with
    | error e => rw [hq] at hz; cases hz
    | ok z' =>
      rw [hq] at hz
      obtain rfl : z' = z := Option.some.inj hz
      exact ⟨z', rfl, rfl⟩
  obtain ⟨i, hi, rfl⟩ := co hx
  obtain ⟨j, hj, rfl⟩ := co hy
  obtain ⟨k, hk, rfl⟩ := co hz
  have l4 : ∀ z, (writeNum .i32 (.int z)).length = 4 := fun z => writeNum_length _ _
  obtain ⟨w1, w2, w3⟩ := window_three (l4 i) (l4 j) (l4 k)
  have pre : ∀ o, o + 4 ≤ 12 → ∀ u : Bytes, u.length = 12 → ∀ v, window (u ++ v) o 4 = window u o 4 := by
    intro o ho u hu v
    unfold window
    rw [List.drop_append_of_le_length (by omega), List.take_append_of_le_length (by rw [List.length_drop]; omega)]
  refine ⟨q, hq, ?_⟩
  intro axis hax
  simp only [lasAxes, List.mem_cons, List.not_mem_nil, or_false] at hax
  rcases hax with rfl | rfl | rfl
  · rw [show quantize _ _ = .ok i from hi, recordInt_eq (quantize_range hi)]
    exact (pre 0 (by omega) _ hal _).trans w1
  · rw [show quantize _ _ = .ok j from hj, recordInt_eq (quantize_range hj)]
    exact (pre 4 (by omega) _ hal _).trans w2
  · rw [show quantize _ _ = .ok k from hk, recordInt_eq (quantize_range hk)]
    exact (pre 8 (by omega) _ hal _).trans w3

theorem axis_ordinary {t : Transforms} (h : OrdinaryTransforms t) {axis : Nat × (P3 F64 → F64) × (Transforms → Axis)}
    (ha : axis ∈ lasAxes) : OrdinaryAxis (axis.2.2 t) := by
  simp only [lasAxes, List.mem_cons, List.not_mem_nil, or_false] at ha
  rcases ha with rfl | rfl | rfl
  · exact h.1
  · exact h.2.1
  · exact h.2.2

/-- A storable coordinate that is not NaN is finite. -/
theorem quantize_source {a : Axis} (ha : FiniteAxis a) {x : F64} (hx : NotNaN x) {z : Int} (h : quantize a x = .ok z) :
    x.isFinite = true := by
  have hi : x.isInf = false := by
    by_contra hc
    rw [C37_infinite a ha x (by simpa using hc)] at h
    cases h
  have h1 : ¬ x.mag > FloatFormat.f64.infMag := of_decide_eq_false hx
  have h2 : ¬ x.mag = FloatFormat.f64.infMag := of_decide_eq_false hi
  exact decide_eq_true (by omega)

theorem axis_coords {good : F64 → Prop} {q : P3 F64} (h : Coords good q)
    {axis : Nat × (P3 F64 → F64) × (Transforms → Axis)} (ha : axis ∈ lasAxes) : good (axis.2.1 q) := by
  simp only [lasAxes, List.mem_cons, List.not_mem_nil, or_false] at ha
  rcases ha with rfl | rfl | rfl
  · exact h.1
  · exact h.2.1
  · exact h.2.2

/-- The coordinates of a record are within one and a half steps of those of the point. -/
theorem record_near {n : Nat} (hn : n ≤ 10) {t : Transforms} (ht : OrdinaryTransforms t) {p : Point} (hp : Sized p)
    {r : Bytes} (h : storedRecord n t p = some r) {q : P3 F64} (hq : lasPosition p = some q) (hnan : Coords NotNaN q)
    {axis : Nat × (P3 F64 → F64) × (Transforms → Axis)} (ha : axis ∈ lasAxes) :
    (axis.2.1 q).isFinite = true ∧
      |recordCoordinate t axis r - value (axis.2.1 q)| ≤ 3 / 2 * |value (axis.2.2 t).scale| := by
  obtain ⟨q', e, hz⟩ := record_ints hn hp h
  rw [hq] at e
  cases e
  have hz := hz axis ha
  have hax := axis_ordinary ht ha
  have hfin := quantize_source hax.finite (axis_coords hnan ha) hz
  obtain ⟨h1, h2⟩ := C37_error_partial _ hax.finite _ hfin _ hz
  obtain ⟨_, h3⟩ := C37_read _ hax _ h1
  refine ⟨hfin, ?_⟩
  unfold recordCoordinate
  have hs : 0 ≤ |value (axis.2.2 t).scale| := abs_nonneg _
  generalize value (dequantize (axis.2.2 t) (recordInt r axis.1)) = d at *
  generalize gridPosition (axis.2.2 t) (recordInt r axis.1) = g at *
  generalize value (axis.2.1 q) = v at *
  generalize |value (axis.2.2 t).scale| = s at *
  rw [abs_lt] at h2
  rw [abs_le] at h3 ⊢
  constructor <;> nlinarith

/-- A value between finite ones that is equal to one of them is finite. -/
theorem le_both {x m : F64} (hx : x.isFinite = true) (h1 : Cmp.le x m = true) (h2 : Cmp.le m x = true) :
    m.isFinite = true ∧ value m = value x := by
  have h1 : Flt.le x m = true := h1
  have h2 : Flt.le m x = true := h2
  have hm : m.isFinite = true := by
    unfold Flt.le at h1 h2
    simp only [Bool.and_eq_true, decide_eq_true_eq] at h1 h2
    have hxm := of_decide_eq_true hx
    apply decide_eq_true
    have h1 := h1.2
    have h2 := h2.2
    unfold rank at h1 h2
    by_cases c1 : x.neg = true <;> by_cases c2 : m.neg = true <;> simp only [c1, c2, if_true, if_false, Bool.false_eq_true] at h1 h2 <;> omega
  exact ⟨hm, le_antisymm ((le_iff usable_f64 m x hm hx).1 h2) ((le_iff usable_f64 x m hx hm).1 h1)⟩

/-- The least value of a list. -/
theorem exists_least {α : Type} (f : α → ℚ) : ∀ {xs : List α}, xs ≠ [] → ∃ x ∈ xs, ∀ y ∈ xs, f x ≤ f y
  | [x], _ => ⟨x, by simp, by simp⟩
  | x :: y :: xs, _ => by
    obtain ⟨m, hm, hl⟩ := exists_least f (xs := y :: xs) (by simp)
    by_cases h : f x ≤ f m
    · refine ⟨x, by simp, ?_⟩
      intro z hz
      rcases List.mem_cons.1 hz with rfl | hz
      · exact le_refl _
      · exact le_trans h (hl z hz)
    · refine ⟨m, List.mem_cons_of_mem _ hm, ?_⟩
      intro z hz
      rcases List.mem_cons.1 hz with rfl | hz
      · exact le_of_lt (not_le.1 h)
      · exact hl z hz

theorem mapM_left {α γ : Type} {f : α → Option γ} {xs : List α} {ys : List γ} (h : xs.mapM f = some ys) {x : α}
    (hx : x ∈ xs) : ∃ y ∈ ys, f x = some y := by
  obtain ⟨i, hi⟩ := List.mem_iff_getElem?.1 hx
  obtain ⟨y, h1, h2⟩ := mapM_getElem h hi
  exact ⟨y, List.mem_iff_getElem?.2 ⟨i, h1⟩, h2⟩

theorem mapM_right {α γ : Type} {f : α → Option γ} {xs : List α} {ys : List γ} (h : xs.mapM f = some ys) {y : γ}
    (hy : y ∈ ys) : ∃ x ∈ xs, f x = some y := by
  obtain ⟨i, hi⟩ := List.mem_iff_getElem?.1 hy
  have hlt := (List.getElem?_eq_some_iff.1 hi).1
  rw [mapM_length h] at hlt
  obtain ⟨y', h1, h2⟩ := mapM_getElem h (List.getElem?_eq_getElem hlt)
  rw [hi] at h1
  cases h1
  exact ⟨_, List.getElem_mem hlt, h2⟩

/-- The tightest box around points with finite coordinates is finite, and has one of them on each face. -/
theorem tight_faces {b : AABB F64} {qs : List (P3 F64)} (h : Tightest NotNaN b qs) (h0 : qs ≠ [])
    (hfin : ∀ q ∈ qs, Coords (fun x => x.isFinite = true) q) {axis : Nat × (P3 F64 → F64) × (Transforms → Axis)}
    (ha : axis ∈ lasAxes) :
    (axis.2.1 b.min).isFinite = true ∧ (axis.2.1 b.max).isFinite = true ∧
      (∀ q ∈ qs, value (axis.2.1 b.min) ≤ value (axis.2.1 q) ∧ value (axis.2.1 q) ≤ value (axis.2.1 b.max)) ∧
      (∃ q ∈ qs, value (axis.2.1 q) = value (axis.2.1 b.min)) ∧ ∃ q ∈ qs, value (axis.2.1 q) = value (axis.2.1 b.max) := by
  obtain ⟨h1, h2⟩ := h
  have o := ordered_flt FloatFormat.f64
  obtain ⟨a1, a1m, a1l⟩ := exists_least (fun q : P3 F64 => value q.x) h0
  obtain ⟨a2, a2m, a2l⟩ := exists_least (fun q : P3 F64 => value q.y) h0
  obtain ⟨a3, a3m, a3l⟩ := exists_least (fun q : P3 F64 => value q.z) h0
  obtain ⟨b1, b1m, b1l⟩ := exists_least (fun q : P3 F64 => -value q.x) h0
  obtain ⟨b2, b2m, b2l⟩ := exists_least (fun q : P3 F64 => -value q.y) h0
  obtain ⟨b3, b3m, b3l⟩ := exists_least (fun q : P3 F64 => -value q.z) h0
  have nn : ∀ {x : F64}, x.isFinite = true → NotNaN x := fun hx => (finite_cases hx).1
  have le : ∀ {x y : F64}, x.isFinite = true → y.isFinite = true → value x ≤ value y → Cmp.le x y = true :=
    fun hx hy => (le_iff usable_f64 _ _ hx hy).2
  have hc := h2 ⟨⟨a1.x, a2.y, a3.z⟩, ⟨b1.x, b2.y, b3.z⟩⟩
    ⟨⟨nn (hfin _ a1m).1, nn (hfin _ a2m).2.1, nn (hfin _ a3m).2.2⟩,
      ⟨nn (hfin _ b1m).1, nn (hfin _ b2m).2.1, nn (hfin _ b3m).2.2⟩⟩
    (fun q hq => ⟨⟨le (hfin _ a1m).1 (hfin _ hq).1 (a1l _ hq), le (hfin _ a2m).2.1 (hfin _ hq).2.1 (a2l _ hq),
        le (hfin _ a3m).2.2 (hfin _ hq).2.2 (a3l _ hq)⟩,
      ⟨le (hfin _ hq).1 (hfin _ b1m).1 (neg_le_neg_iff.1 (b1l _ hq)),
        le (hfin _ hq).2.1 (hfin _ b2m).2.1 (neg_le_neg_iff.1 (b2l _ hq)),
        le (hfin _ hq).2.2 (hfin _ b3m).2.2 (neg_le_neg_iff.1 (b3l _ hq))⟩⟩)
  have left : ∀ {x y : F64}, Cmp.le x y = true → NotNaN x := by
    intro x y hxy
    have hxy : Flt.le x y = true := hxy
    unfold Flt.le at hxy
    simp only [Bool.and_eq_true, Bool.not_eq_true'] at hxy
    exact hxy.1.1
  have right : ∀ {x y : F64}, Cmp.le x y = true → NotNaN y := by
    intro x y hxy
    have hxy : Flt.le x y = true := hxy
    unfold Flt.le at hxy
    simp only [Bool.and_eq_true, Bool.not_eq_true'] at hxy
    exact hxy.1.2
  obtain ⟨⟨l1, l2, l3⟩, u1, u2, u3⟩ := h1 _ a1m
  have g1 : Coords NotNaN b.min := ⟨left l1, left l2, left l3⟩
  have g2 : Coords NotNaN b.max := ⟨right u1, right u2, right u3⟩
  have tr : ∀ {x y z : F64}, Cmp.le x y = true → Cmp.le y z = true → Cmp.le x z = true := fun hxy hyz =>
    o.trans _ _ _ (left hxy) (left hyz) (right hyz) hxy hyz
  have hbb : Below b.min b.max := ⟨tr l1 u1, tr l2 u2, tr l3 u3⟩
  have k1 := (hc b.min g1 ⟨⟨o.refl _ g1.1, o.refl _ g1.2.1, o.refl _ g1.2.2⟩, hbb⟩).1
  have k2 := (hc b.max g2 ⟨hbb, ⟨o.refl _ g2.1, o.refl _ g2.2.1, o.refl _ g2.2.2⟩⟩).2
  simp only [lasAxes, List.mem_cons, List.not_mem_nil, or_false] at ha
  rcases ha with rfl | rfl | rfl
  · obtain ⟨f1, e1⟩ := le_both (hfin _ a1m).1 k1.1 (h1 _ a1m).1.1
    obtain ⟨f2, e2⟩ := le_both (hfin _ b1m).1 (h1 _ b1m).2.1 k2.1
    exact ⟨f1, f2, fun q hq => ⟨e1.trans_le (a1l q hq), (neg_le_neg_iff.1 (b1l q hq)).trans_eq e2.symm⟩,
      ⟨a1, a1m, e1.symm⟩, b1, b1m, e2.symm⟩
  · obtain ⟨f1, e1⟩ := le_both (hfin _ a2m).2.1 k1.2.1 (h1 _ a2m).1.2.1
    obtain ⟨f2, e2⟩ := le_both (hfin _ b2m).2.1 (h1 _ b2m).2.2.1 k2.2.1
    exact ⟨f1, f2, fun q hq => ⟨e1.trans_le (a2l q hq), (neg_le_neg_iff.1 (b2l q hq)).trans_eq e2.symm⟩,
      ⟨a2, a2m, e1.symm⟩, b2, b2m, e2.symm⟩
  · obtain ⟨f1, e1⟩ := le_both (hfin _ a3m).2.2 k1.2.2 (h1 _ a3m).1.2.2
    obtain ⟨f2, e2⟩ := le_both (hfin _ b3m).2.2 (h1 _ b3m).2.2.2 k2.2.2
    exact ⟨f1, f2, fun q hq => ⟨e1.trans_le (a3l q hq), (neg_le_neg_iff.1 (b3l q hq)).trans_eq e2.symm⟩,
      ⟨a3, a3m, e1.symm⟩, b3, b3m, e2.symm⟩

/-- The header's box around the points is one around the records, up to one and a half steps. -/
theorem bounded_records {n : Nat} (hn : n ≤ 10) {t : Transforms} (ht : OrdinaryTransforms t) {h : LasHeader}
    {ps : List Point} {recs : List Bytes} (hs : ∀ p ∈ ps, Sized p) (hnan : NoNaN ps) (h0 : ps ≠ [])
    (hst : Stored n t ps recs) (hb : Bounded h ps) : BoxesRecords (3 / 2) h t recs := by
  obtain ⟨qs, hq, htight⟩ := hb
  have q0 : qs ≠ [] := by
    intro e
    have := mapM_length hq
    rw [e] at this
    exact h0 (List.eq_nil_of_length_eq_zero this.symm)
  have fin : ∀ q ∈ qs, ∀ axis ∈ lasAxes, (axis.2.1 q).isFinite = true := by
    intro q hq' axis ha
    obtain ⟨p, hp, e⟩ := mapM_right hq hq'
    obtain ⟨r, _, e2⟩ := mapM_left hst hp
    exact (record_near hn ht (hs p hp) e2 e (hnan p hp q e) ha).1
  intro axis ha
  obtain ⟨f1, f2, k1, ⟨qa, qam, ea⟩, qb, qbm, eb⟩ := tight_faces htight q0
    (fun q hq => ⟨fin q hq (0, P3.x, Transforms.x) (by simp [lasAxes]), fin q hq (1, P3.y, Transforms.y) (by simp [lasAxes]),
      fin q hq (2, P3.z, Transforms.z) (by simp [lasAxes])⟩) ha
  refine ⟨f1, f2, ?_, ?_, ?_⟩
  · intro r hr
    obtain ⟨p, hp, e⟩ := mapM_right hst hr
    obtain ⟨q, hqm, e2⟩ := mapM_left hq hp
    have hnear := abs_le.1 (record_near hn ht (hs p hp) e e2 (hnan p hp q e2) ha).2
    obtain ⟨c1, c2⟩ := k1 q hqm
    have c1 : value (axis.2.1 h.min) ≤ _ := c1
    have c2 : _ ≤ value (axis.2.1 h.max) := c2
    constructor <;> linarith [hnear.1, hnear.2]
  · obtain ⟨p, hp, e⟩ := mapM_right hq qam
    obtain ⟨r, hr, e2⟩ := mapM_left hst hp
    have hnear := abs_le.1 (record_near hn ht (hs p hp) e2 e (hnan p hp qa e) ha).2
    have ea : _ = value (axis.2.1 h.min) := ea
    exact ⟨r, hr, by linarith [hnear.1, hnear.2]⟩
  · obtain ⟨p, hp, e⟩ := mapM_right hq qbm
    obtain ⟨r, hr, e2⟩ := mapM_left hst hp
    have hnear := abs_le.1 (record_near hn ht (hs p hp) e2 e (hnan p hp qb e) ha).2
    have eb : _ = value (axis.2.1 h.max) := eb
    exact ⟨r, hr, by linarith [hnear.1, hnear.2]⟩

end Pasture.Las
