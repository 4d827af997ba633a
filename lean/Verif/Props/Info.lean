import Verif.Model.Info
import Verif.Spec.Info
import Verif.Props.LasReader
import Verif.Props.Bounds
import Verif.Props.Pnts

/-!
# The `info` tool: C80
-/

namespace Pasture.Props

open Spec Las Tiles3d Info BorrowedBuffer AABB

/-- A reader that fails on the first chunk, which is read into an empty buffer. -/
theorem analysis_fails {ρ : Type} [PointReader ρ] [SeekToPoint ρ] {r r' : ρ} {n : Nat} {e : Fault}
    (hc : pointCount r = .ok (n, r')) (hn : 0 < n)
    (hr : ∀ k, 0 < k → k ≤ n → PointReader.readInto r' (VectorBuffer.newFromLayout (PointReader.defaultLayout r')) k = .error e) :
    analyzeFile r = .error e := by
  unfold analyzeFile
  rw [hc]
  show (if n = 0 then _ else _) = _
  rw [if_neg (by omega)]
  have hchunks : ∃ m, (n + 1000000 - 1) / 1000000 = m + 1 := ⟨(n - 1) / 1000000, by omega⟩
  obtain ⟨m, hm⟩ := hchunks
  dsimp only
  rw [hm, List.range_succ_eq_map, forLoop_cons]
  have h1 : analyzeChunk 1000000 n (r', VectorBuffer.newFromLayout (PointReader.defaultLayout r'),
      attributes.map fun a => (a, none)) 0 = .error e := by
    unfold analyzeChunk
    show (PointReader.readInto r' (VectorBuffer.newFromLayout (PointReader.defaultLayout r')) _).bind _ = _
    rw [hr _ (by omega) (by omega)]
    rfl
  rw [h1]
  rfl

/-- **C80 is violated for LAS files**: the detailed analysis of a file with points panics. -/
theorem C80_las_violated (r : RawLasReader) (recs : List Bytes) (h : Standing r recs 0) (h0 : recs ≠ [])
    (hn : recs.length < 2 ^ 63) : analyzeFile r = panicked := by
  obtain ⟨r', h1, _, _⟩ := C39_point_count r recs 0 h hn
  refine analysis_fails h1 (List.length_pos_iff.2 h0) ?_
  intro k hk _
  show (if _ then _ else _) = _
  rw [if_pos (show len (VectorBuffer.newFromLayout _) < k from hk)]
  rfl

/-- **C80 is violated for LAZ files**. -/
theorem C80_laz_violated (r : RawLazReader) (recs : List Bytes) (h : Standing r recs 0) (h0 : recs ≠ [])
    (hn : recs.length < 2 ^ 63) : analyzeFile r = panicked := by
  obtain ⟨r', h1, _, _⟩ := C39_point_count r recs 0 h hn
  refine analysis_fails h1 (List.length_pos_iff.2 h0) ?_
  intro k hk _
  show (if _ then _ else _) = _
  rw [if_pos (show len (VectorBuffer.newFromLayout _) < k from hk)]
  rfl

/-- **C80 is violated for 3D Tiles**. -/
theorem C80_pnts_violated {r : PntsReader} {ps : List Point} {center : Option (P3 F64)} (h : Pnts.Opened r ps center 0)
    (h0 : ps ≠ []) (hn : ps.length < 2 ^ 63) : analyzeFile r = panicked := by
  obtain ⟨_, hc⟩ := C39_pnts_index_and_count h hn
  refine analysis_fails hc (List.length_pos_iff.2 h0) ?_
  intro k hk hkn
  show PntsReader.readInto r _ k = _
  unfold PntsReader.readInto
  have hmin : min (r.metadata.pointsLength - r.currentPointIndex) k = k := by
    have h1 := h.count
    have h2 := h.index
    omega
  dsimp only
  rw [hmin]
  show (bailIf (k = 0)).bind _ = _
  rw [show bailIf (k = 0) = .ok () by unfold bailIf; rw [if_neg (by simp; omega)]]
  show (forLoop _ _ _).bind _ = _
  obtain ⟨m, ms, hms⟩ := List.exists_cons_of_ne_nil h.solid.nonempty
  have hm : m ∈ r.layout.attributes := by rw [hms]; exact List.mem_cons_self
  have hname : r.layout.getAttributeByName m.name = some m := (getByName_iff r.layout h.solid.names m.name m).2 ⟨hm, rfl⟩
  obtain ⟨_, o, f, c, d2, d3, d4, d5, d6⟩ := opened_step h (convertible_self h.solid) h.solid hm hname
  have hfirst : PntsReader.readAttribute r r.layout k (VectorBuffer.newFromLayout r.layout) m = .error .panic := by
    unfold PntsReader.readAttribute
    rw [hname]
    simp only [d2, d5, expectSome, bind, Except.bind]
    obtain ⟨j, rfl⟩ := Nat.exists_eq_succ_of_ne_zero (Nat.pos_iff_ne_zero.1 hk)
    rw [List.range_succ_eq_map, forLoop_cons, h.index,
      (readValue_eq (β := VectorBuffer) h hm d4 d6 d3 (k := 0) (List.length_pos_iff.2 h0)).1]
    have hset : ∀ v, BorrowedMutBuffer.setAttribute (VectorBuffer.newFromLayout r.layout) m.definition (0 + 0) v = .error .panic := by
      intro v
      show Interleaved.setAttribute (VectorBuffer.newFromLayout r.layout) m.definition 0 v = _
      unfold Interleaved.setAttribute
      obtain ⟨m', hm', he, hg⟩ := getAttribute_member (List.mem_map_of_mem (f := Member.definition) hm)
      have hpos := h.solid.positive m' hm'
      rw [show (VectorBuffer.newFromLayout r.layout).layout = r.layout from rfl, hg]
      show (slicePut _ _ _ _).bind _ = _
      unfold slicePut
      rw [if_neg (by
        rintro ⟨_, h2, _⟩
        change 0 * _ + m'.offset + m'.size ≤ 0 at h2
        omega)]
      rfl
    rw [hset]
    rfl
  rw [hms, forLoop_cons]
  rw [show PntsReader.readAttribute r (layout (VectorBuffer.newFromLayout (PointReader.defaultLayout r))) k
    (VectorBuffer.newFromLayout (PointReader.defaultLayout r)) m = .error .panic from hfirst]
  rfl

/-- The theorems apply to every LAS file with points (here of any format), and to a tile. -/
example (n : Nat) (hn : n ≤ 10) (t : Transforms) : ∃ f r, Format.new n = .ok f ∧
    openLas (List.replicate 3 (zeros (lasRecordLength n))).flatten ⟨f, none⟩ 3 t 0 (lasRecordLength n) false = .ok r ∧
    analyzeFile r = panicked ∧ analyzeFile oneTile = panicked := by
  obtain ⟨f, r, h1, h2, h3, _⟩ := C38_open_las n hn false t (List.replicate 3 (zeros (lasRecordLength n))) (by
    intro rec hrec
    rw [List.eq_of_mem_replicate hrec]
    simp [zeros]) _ 0 (by
    unfold window
    rw [List.drop_zero]
    refine List.take_of_length_le ?_
    simp [zeros]
    omega)
  rw [List.length_replicate] at h2
  exact ⟨f, r, h1, h2, C80_las_violated r _ h3 (by simp) (by simp), C80_pnts_violated oneTile_opened (by simp) (by simp)⟩

/-- **C80 holds for files without points**: nothing is reported. -/
theorem C80_empty_partial {ρ : Type} [PointReader ρ] [SeekToPoint ρ] {r r' : ρ} (hc : pointCount r = .ok (0, r')) :
    ∃ extents, analyzeFile r = .ok (extents, r') ∧ ∀ e ∈ extents, e.2 = none := by
  refine ⟨attributes.map fun a => (a, none), ?_, ?_⟩
  · unfold analyzeFile
    rw [hc]
    rfl
  · intro e he
    obtain ⟨a, _, rfl⟩ := List.mem_map.1 he
    rfl

/-- The attributes reported. -/
theorem C80_attributes : Info.attributes = reportedAttributes := rfl

theorem hasName_iff (l : PointLayout) (name : String) :
    l.hasAttributeWithName name = true ↔ ∃ m ∈ l.attributes, m.name = name := by
  unfold PointLayout.hasAttributeWithName
  rw [List.any_eq_true]
  simp

theorem least_append {p : Prim} {x y : Num} {xs ys : List Num} (hx : Least x xs) (hy : Least y ys)
    (hg : ∀ n ∈ xs ++ ys, Ordinary p n) : Least (Num.infimum x y) (xs ++ ys) := by
  have o := ordered_num p
  have k := picks_smaller o
  have gx := hg x (List.mem_append_left _ hx.1)
  have gy := hg y (List.mem_append_right _ hy.1)
  have hb := k.below x y gx gy
  have hone : smaller x y = x ∨ smaller x y = y := k.one x y
  have gs : Ordinary p (smaller x y) := by rcases hone with h | h <;> rw [h] <;> assumption
  refine ⟨?_, ?_⟩
  · show smaller x y ∈ _
    rcases hone with h | h <;> rw [h]
    · exact List.mem_append_left _ hx.1
    · exact List.mem_append_right _ hy.1
  · intro z hz
    rcases List.mem_append.1 hz with h | h
    · exact o.trans _ _ _ gs gx (hg z hz) hb.1 (hx.2 z h)
    · exact o.trans _ _ _ gs gy (hg z hz) hb.2 (hy.2 z h)

theorem greatest_append {p : Prim} {x y : Num} {xs ys : List Num} (hx : Greatest x xs) (hy : Greatest y ys)
    (hg : ∀ n ∈ xs ++ ys, Ordinary p n) : Greatest (Num.supremum x y) (xs ++ ys) := by
  have o := ordered_num p
  have k := picks_larger o
  have gx := hg x (List.mem_append_left _ hx.1)
  have gy := hg y (List.mem_append_right _ hy.1)
  have hb := k.below x y gx gy
  have hone : larger x y = x ∨ larger x y = y := k.one x y
  have gs : Ordinary p (larger x y) := by rcases hone with h | h <;> rw [h] <;> assumption
  refine ⟨?_, ?_⟩
  · show larger x y ∈ _
    rcases hone with h | h <;> rw [h]
    · exact List.mem_append_left _ hx.1
    · exact List.mem_append_right _ hy.1
  · intro z hz
    rcases List.mem_append.1 hz with h | h
    · exact o.trans _ _ _ (hg z hz) gx gs (hx.2 z h) hb.1
    · exact o.trans _ _ _ (hg z hz) gy gs (hy.2 z h) hb.2

/-- The types of the attributes reported are those of the table wherever the points have them, and there is no NaN. -/
structure Reportable (l : PointLayout) (ps : List Point) : Prop where
  types : ∀ a ∈ reportedAttributes, ∀ m ∈ l.attributes, m.name = a.1.name → m.definition = a.1
  numbers : ∀ a ∈ reportedAttributes, ∀ k, ∀ n ∈ reportedValues ps a.1 k, Ordinary a.2.prim n

theorem reported_types : ∀ a ∈ reportedAttributes, a.2.dataType = a.1.datatype := by decide

theorem minmaxChunk_known {β : Type} [BorrowedBuffer β] {b : β} {l : PointLayout} (hl : Solid l) {qs ps : List Point}
    (h : ShowsPoints b l ps) (h0 : ps ≠ []) (hr : Reportable l (qs ++ ps)) {a : AttrDef × ValueType} (ha : a ∈ reportedAttributes)
    {e : Extent} (he : Known l qs a.1 a.2.count e) :
    ∃ e', minmaxChunk b (a, e) = .ok (a, e') ∧ Known l (qs ++ ps) a.1 a.2.count e' := by
  unfold minmaxChunk
  rw [h.layout_eq]
  by_cases hn : l.hasAttributeWithName a.1.name = true
  · rw [if_pos hn]
    obtain ⟨m, hm, hmn⟩ := (hasName_iff _ _).1 hn
    have hd := hr.types a ha m hm hmn
    have happ : ∀ k, reportedValues (qs ++ ps) a.1 k = reportedValues qs a.1 k ++ reportedValues ps a.1 k := fun k => List.filterMap_append
    obtain ⟨_, hmm⟩ := C34_minmax b l hl ps h a.2 a.1 (hd ▸ List.mem_map_of_mem hm) (reported_types a ha)
      (fun k n hk => hr.numbers a ha k n (by rw [happ]; exact List.mem_append_right _ hk))
    obtain ⟨lo, hi, h1, h2, h3, h4⟩ := hmm h0
    rw [h1]
    cases e with
    | none =>
      refine ⟨some (lo, hi), rfl, ⟨m, hm, hmn⟩, ?_⟩
      have hq : qs = [] := he.resolve_right fun hc => hc m hm hmn
      subst hq
      exact ⟨h2, h3, h4⟩
    | some old =>
      obtain ⟨a1, b1⟩ := old
      obtain ⟨_, g2, g3, g4⟩ := he
      refine ⟨_, rfl, ⟨m, hm, hmn⟩, by simp [g2, h2], by simp [g3, h3], ?_⟩
      intro k hk
      obtain ⟨x, y, p1, p2, p3, p4⟩ := g4 k hk
      obtain ⟨x', y', q1, q2, q3, q4⟩ := h4 k hk
      refine ⟨Num.infimum x x', Num.supremum y y', by rw [List.getElem?_zipWith, p1, q1],
        by rw [List.getElem?_zipWith, p2, q2], ?_⟩
      rw [happ]
      have hg := hr.numbers a ha k
      rw [happ] at hg
      exact ⟨least_append p3 q3 hg, greatest_append p4 q4 hg⟩
  · rw [if_neg hn]
    have hno : ∀ m ∈ l.attributes, m.name ≠ a.1.name := fun m hm hc => hn ((hasName_iff _ _).2 ⟨m, hm, hc⟩)
    refine ⟨e, rfl, ?_⟩
    cases e with
    | none => exact .inr hno
    | some old =>
      obtain ⟨⟨m, hm, hc⟩, _⟩ := he
      exact absurd hc (hno m hm)

/-- **C80 in part**: chunk by chunk, the analysis keeps the least and greatest values of all points of the chunks so far
    (if the chunks are in the buffer, which no reader achieves). -/
theorem C80_chunk_partial {β : Type} [BorrowedBuffer β] (b : β) (l : PointLayout) (hl : Solid l) (qs ps : List Point)
    (h : ShowsPoints b l ps) (h0 : ps ≠ []) (hr : Reportable l (qs ++ ps)) (extents : List ((AttrDef × ValueType) × Extent))
    (hs : extents.map Prod.fst = reportedAttributes) (he : ∀ a ∈ extents, Known l qs a.1.1 a.1.2.count a.2) :
    ∃ extents', extents.mapM (minmaxChunk b) = .ok extents' ∧ extents'.map Prod.fst = reportedAttributes ∧
      ∀ a ∈ extents', Known l (qs ++ ps) a.1.1 a.1.2.count a.2 := by
  have key : ∀ es : List ((AttrDef × ValueType) × Extent), (∀ a ∈ es, a.1 ∈ reportedAttributes ∧ Known l qs a.1.1 a.1.2.count a.2) →
      ∃ es', es.mapM (minmaxChunk b) = .ok es' ∧ es'.map Prod.fst = es.map Prod.fst ∧
        ∀ a ∈ es', Known l (qs ++ ps) a.1.1 a.1.2.count a.2 := by
    intro es
    induction es with
    | nil => intro _; exact ⟨[], rfl, rfl, by simp⟩
    | cons a es ih =>
      intro hall
      obtain ⟨es', h1, h2, h3⟩ := ih fun x hx => hall x (List.mem_cons_of_mem _ hx)
      obtain ⟨ha, hk⟩ := hall a List.mem_cons_self
      obtain ⟨e', g1, g2⟩ := minmaxChunk_known hl h h0 hr ha hk
      refine ⟨(a.1, e') :: es', ?_, by simp [h2], ?_⟩
      · rw [List.mapM_cons, show minmaxChunk b a = .ok (a.1, e') from g1, h1]
        rfl
      · intro x hx
        rcases List.mem_cons.1 hx with rfl | hx
        · exact g2
        · exact h3 x hx
  obtain ⟨es', h1, h2, h3⟩ := key extents fun a ha => ⟨hs ▸ List.mem_map_of_mem ha, he a ha⟩
  exact ⟨es', h1, h2.trans hs, h3⟩

namespace InfoExample

/-- Points with intensities only. -/
def intensities : PointLayout := ⟨[⟨⟨"Intensity", .u16⟩, 0⟩], 2, 1⟩

theorem intensities_solid : Solid intensities where
  nonempty := by decide
  names := by decide
  positive := by decide
  inside := by decide
  apart := by decide

/-- Two points. -/
def chunk (x y : Byte) : VectorBuffer := HoldsRecords.ofRecords intensities [[x, 0], [y, 0]]

def start : List ((AttrDef × ValueType) × Extent) := Info.attributes.map fun a => (a, none)

theorem chunk_shows (x y : Byte) : ShowsPoints (chunk x y) intensities ([[x, 0], [y, 0]].map (pointOf intensities)) :=
  interleaved_shows_points intensities_solid (by simp [AllLen, intensities])

/-- Two chunks, 4 and 3, then 7 and 5: the intensities are reported to go from 3 to 7. -/
example : (start.mapM (minmaxChunk (chunk 4 3))).bind (fun e => e.mapM (minmaxChunk (chunk 7 5))) =
    .ok (Info.attributes.map fun a => (a, if a.1.name = "Intensity" then some ([.int 3], [.int 7]) else none)) := by
  decide +kernel

/-- The theorem applies to the chunks. -/
example : ∃ e e', start.mapM (minmaxChunk (chunk 4 3)) = .ok e ∧ e.mapM (minmaxChunk (chunk 7 5)) = .ok e' ∧
    ∀ a ∈ e', Known intensities ([[4, 0], [3, 0], [7, 0], [5, 0]].map (pointOf intensities)) a.1.1 a.1.2.count a.2 := by
  have hr : Reportable intensities ([[4, 0], [3, 0], [7, 0], [5, 0]].map (pointOf intensities)) := by
    refine ⟨by decide, ?_⟩
    intro a ha k n hn
    obtain ⟨q, hq, hv⟩ := List.mem_filterMap.1 hn
    have hall : ∀ a ∈ reportedAttributes, ∀ q ∈ [[4, 0], [3, 0], [7, 0], [5, 0]].map (pointOf intensities),
        ∀ n ∈ ((Point.get q a.1).map (numbersOf a.1.datatype)).getD [], ∃ i, n = .int i ∧ a.2.prim.isInt = true := by
      intro a ha q hq n hn
      have hb : ∀ a ∈ reportedAttributes, ∀ q ∈ [[4, 0], [3, 0], [7, 0], [5, 0]].map (pointOf intensities),
        ∀ n ∈ ((Point.get q a.1).map (numbersOf a.1.datatype)).getD [],
          (match n with | .int _ => a.2.prim.isInt | _ => false) = true := by decide +kernel
      have := hb a ha q hq n hn
      cases n with
      | int i => exact ⟨i, rfl, this⟩
      | single x => cases this
      | double x => cases this
    cases hg : Point.get q a.1 with
    | none => rw [hg] at hv; cases hv
    | some v =>
      rw [hg] at hv
      obtain ⟨i, rfl, hi⟩ := hall a ha q hq n (by rw [hg]; exact List.mem_of_getElem? hv)
      exact hi
  have hr1 : Reportable intensities ([] ++ [[4, 0], [3, 0]].map (pointOf intensities)) :=
    ⟨hr.types, fun a ha k n hn => hr.numbers a ha k n (by
      obtain ⟨q, hq, hv⟩ := List.mem_filterMap.1 hn
      exact List.mem_filterMap.2 ⟨q, by simp at hq ⊢; grind, hv⟩)⟩
  obtain ⟨e, h1, h2, h3⟩ := C80_chunk_partial (chunk 4 3) intensities intensities_solid [] _ (chunk_shows 4 3) (by simp) hr1 start
    (by rfl) (by
      intro a ha
      obtain ⟨c, _, rfl⟩ := List.mem_map.1 ha
      exact .inl rfl)
  obtain ⟨e', g1, _, g3⟩ := C80_chunk_partial (chunk 7 5) intensities intensities_solid _ _ (chunk_shows 7 5) (by simp) hr e h2 h3
  exact ⟨e, e', h1, g1, g3⟩

end InfoExample

end Pasture.Props
