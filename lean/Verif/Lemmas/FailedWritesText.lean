import Verif.Lemmas.FailedWrites
import Verif.Props.Ascii
import Verif.Props.Pnts

/-!
# What failed writes of PNTS and ASCII files leave behind
-/

namespace Pasture

open BorrowedBuffer Spec

namespace Tiles3d

theorem forget_writeAttribute {β : Type} [BorrowedBuffer β] (w : PntsWriter) (points : β) (base : Nat)
    (cache : HashMapBuffer) (entry : String × Option Converter) :
    forget (w.writeAttributeLeft points base cache entry) = PntsWriter.writeAttribute points base cache entry := by
  unfold PntsWriter.writeAttributeLeft PntsWriter.writeAttribute
  cases (layout points).getAttributeByName entry.1 with
  | none => rfl
  | some src =>
    simp only [forget_bind, forget_leaving]
    congr 1
    funext dst
    exact forget_loop (fun _ _ => forget_leaving _ _) _ _

theorem forget_pntsWrite (order : Converters → Converters) {β : Type} [BorrowedBuffer β] (w : PntsWriter) (points : β) :
    forget (w.writeLeft order points) = w.write order points := by
  unfold PntsWriter.writeLeft PntsWriter.write
  split
  · rfl
  · split
    · simp only [forget_bind, forget_leaving, forget_pure]
    · simp only [forget_bind, forget_pure, forget_loop (forget_writeAttribute w points _)]

end Tiles3d

namespace Ascii

open Spec.Ascii Props RawAsciiWriter

theorem forget_writePoint (w : RawAsciiWriter) (point : UntypedPoint) (text : List Char) :
    forget (w.writePointLeft point text) = w.writePoint point text := by
  unfold writePointLeft writePoint
  simp only [forget_bind, forget_pure]
  congr 1
  refine forget_loop (fun x a => ?_) _ _
  obtain ⟨t, index⟩ := a
  simp only [forget_bind, forget_leaving, forget_pure]

theorem forget_writeAsciiChunk {β : Type} [BorrowedBuffer β] (w : RawAsciiWriter) (b : β) (st : List Char × Bytes) (k : Nat) :
    forget (w.writeChunkLeft b st k) = w.writeChunk b st k := by
  unfold writeChunkLeft writeChunk
  simp only [forget_bind, forget_leaving, forget_pure]
  congr 1; funext s
  congr 1; funext s'
  congr 1
  refine forget_loop (fun x a => ?_) _ _
  simp only [forget_bind, forget_leaving, forget_writePoint]

theorem forget_asciiWrite {β : Type} [BorrowedBuffer β] (w : RawAsciiWriter) (b : β) :
    forget (w.writeLeft b) = w.write b := by
  unfold writeLeft write
  simp only [forget_bind, forget_pure, forget_mapError _ (fun e : Fault × List Char => (e.1, { w with text := e.2 })) fun _ => rfl,
    forget_loop (forget_writeAsciiChunk w b)]

/-- The columns of a point up to the first that cannot be written. -/
theorem columns_left (d : List Char) (g : PointDataType → Out (List Char)) (total : Nat) (t : PointDataType) (e : Fault)
    (ht : g t = .error e) (post : List PointDataType) :
    ∀ (pre : List PointDataType) (k : Nat) (text : List Char) (cols : List (List Char)),
      total = k + (pre ++ t :: post).length → pre.mapM g = .ok cols →
      ((pre ++ t :: post).zipIdx k).foldlM (m := Left (List Char)) (fun text x => do
        let s ← leaving text (g x.1)
        pure (text ++ s ++ if x.2 ≠ total - 1 then d else [])) text =
      .error (e, text ++ (cols.map (· ++ d)).flatten) := by
  intro pre
  induction pre with
  | nil =>
    intro k text cols hk hc
    cases hc
    rw [List.nil_append, List.zipIdx_cons, List.foldlM_cons, ht]
    show Except.error (e, text) = _
    simp
  | cons u pre ih =>
    intro k text cols hk hc
    rw [List.mapM_cons] at hc
    cases hu : g u with
    | error f => rw [hu] at hc; cases hc
    | ok s =>
      rw [hu] at hc
      cases hp : pre.mapM g with
      | error f => rw [hp] at hc; cases hc
      | ok cs =>
        rw [hp] at hc
        cases hc
        rw [List.cons_append, List.zipIdx_cons, List.foldlM_cons, hu]
        have hk' : k ≠ total - 1 := by simp at hk; omega
        show Except.bind (.ok (text ++ s ++ if k ≠ total - 1 then d else [])) _ = _
        rw [if_pos hk']
        refine (ih (k + 1) (text ++ s ++ d) cs (by simp at hk ⊢; omega) hp).trans ?_
        simp

theorem writePoint_left {l : PointLayout} (hl : Solid l) {r : Bytes} (hr : r.length = l.size) (w : RawAsciiWriter)
    (text : List Char) {pre post : List PointDataType} {t : PointDataType} (hsplit : w.parseLayout = pre ++ t :: post)
    {cols : List (List Char)} (hc : pre.mapM (pointText w.precision (pointOf l r)) = .ok cols) {e : Fault}
    (ht : pointText w.precision (pointOf l r) t = .error e) :
    w.writePointLeft (UntypedPoint.newSlice l r) text = .error (e, text ++ (cols.map (· ++ w.delimiter)).flatten) := by
  have hcol : columnText w.precision (UntypedPoint.newSlice l r) = pointText w.precision (pointOf l r) :=
    funext (columnText_eq hl hr w.precision)
  have := columns_left w.delimiter (pointText w.precision (pointOf l r)) w.parseLayout.length t e ht post pre 0 text cols
    (by rw [hsplit]; simp) hc
  unfold writePointLeft
  rw [hcol]
  rw [← hsplit] at this
  refine Eq.trans (congrArg (fun x => Except.bind x fun text => (pure (text ++ ['\n']) : Left (List Char) (List Char))) this) ?_
  rfl

/-- A write that fails at a column of the first point. -/
theorem ascii_left {β : Type} [BorrowedBuffer β] {b : β} {l : PointLayout} (hl : Solid l) {p : Point} {ps : List Point}
    (hb : ShowsPoints b l (p :: ps)) (w : RawAsciiWriter) {pre post : List PointDataType} {t : PointDataType}
    (hsplit : w.parseLayout = pre ++ t :: post) {cols : List (List Char)}
    (hc : pre.mapM (pointText w.precision p) = .ok cols) {e : Fault} (ht : pointText w.precision p t = .error e) :
    w.writeLeft b = .error (e, { w with text := w.text ++ (cols.map (· ++ w.delimiter)).flatten }) := by
  have hlen : len b = (p :: ps).length := hb.len_eq
  have hpos := chunkSize_pos
  rw [List.length_cons] at hlen
  generalize hN : min chunkSize (ps.length + 1) = N
  have hN1 : 1 ≤ N := by omega
  have hNle : N * l.size ≤ (zeros (chunkSize * l.size)).length := by
    simp only [zeros, List.length_replicate]
    exact Nat.mul_le_mul_right _ (by omega)
  obtain ⟨r, h1, h2, h3⟩ := hb.getPointRange_ok 0 N ((zeros (chunkSize * l.size)).take (N * l.size))
    (by omega) (by rw [List.length_cons]; omega) (by rw [List.length_take]; rw [Nat.sub_zero]; omega)
  rw [Nat.sub_zero] at h2 h3
  have hput : put (zeros (chunkSize * l.size)) 0 r =
      (recordsOf l.size N r).flatten ++ (zeros (chunkSize * l.size)).drop r.length := by
    rw [flatten_recordsOf h2]
    unfold put
    simp
  obtain ⟨N', rfl⟩ : ∃ N', N = N' + 1 := ⟨N - 1, by omega⟩
  rw [List.drop_zero, List.take_succ_cons] at h3
  obtain ⟨r0, rs, hr0, hp0, hrs⟩ : ∃ r0 rs, recordsOf l.size (N' + 1) r = r0 :: rs ∧ pointOf l r0 = p ∧
      rs.map (pointOf l) = ps.take N' := by
    cases hq : recordsOf l.size (N' + 1) r with
    | nil => rw [hq] at h3; cases h3
    | cons r0 rs =>
      rw [hq, List.map_cons] at h3
      injection h3 with a b
      exact ⟨r0, rs, rfl, a, b⟩
  have hall := recordsOf_allLen h2
  have hr0l : r0.length = l.size := hall r0 (by rw [hr0]; simp)
  subst hp0
  have hchunk : w.writeChunkLeft b (w.text, zeros (chunkSize * l.size)) 0 =
      .error (e, w.text ++ (cols.map (· ++ w.delimiter)).flatten) := by
    unfold writeChunkLeft
    simp only [hb.layout_eq, hlen, Nat.zero_mul, Nat.sub_zero, hN, Nat.zero_add]
    rw [sliceGet_prefix hNle]
    show (leaving w.text (getPointRange b ⟨0, N' + 1⟩ _)).bind _ = _
    rw [h1]
    show Except.bind (List.foldlM (m := Left (List Char)) (fun text i => Except.bind (leaving text (sliceGet (put _ 0 r) (i * l.size) (i * l.size + l.size))) fun record =>
      w.writePointLeft (UntypedPoint.newSlice l record) text) w.text (List.range (N' + 1))) _ = _
    rw [List.range_succ_eq_map, List.foldlM_cons, hput]
    rw [sliceGet_blocks_rest hall (k := 0) (r := r0) (by rw [hr0]; rfl)]
    show Except.bind (Except.bind (w.writePointLeft (UntypedPoint.newSlice l r0) w.text) _) _ = _
    rw [writePoint_left hl hr0l w w.text hsplit hc ht]
    rfl
  unfold writeLeft
  simp only [hb.layout_eq, hlen]
  obtain ⟨M, hM⟩ : ∃ M, (ps.length + 1 + (chunkSize - 1)) / chunkSize = M + 1 :=
    ⟨(ps.length + 1 + (chunkSize - 1)) / chunkSize - 1, by
      have : 1 ≤ (ps.length + 1 + (chunkSize - 1)) / chunkSize := by
        rw [Nat.le_div_iff_mul_le hpos]; omega
      omega⟩
  rw [hM, List.range_succ_eq_map, List.foldlM_cons, hchunk]
  rfl

end Ascii

end Pasture
