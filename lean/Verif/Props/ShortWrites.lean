import Verif.Spec.ShortWrites
import Verif.Props.Pnts

/-!
# C97: what arrives at a destination that takes fewer bytes than it is offered
-/

namespace Pasture.Tiles3d

open Spec Spec.Pnts BorrowedBuffer Las

/-- The destination has the same bytes as the stream, which is at its end. -/
def Same (s : Stream) (k : Nat) (d : Destination) : Prop :=
  s = ⟨d.data, d.data.length⟩ ∧ TakesAtLeast k d

theorem writeAllLoop_patient : ∀ (turns : Nat) (d : Destination) (b : Bytes), b.length ≤ turns → TakesAtLeast 1 d →
    ∃ c, Destination.writeAllLoop turns d b = .ok { d with data := d.data ++ b, calls := c } := by
  intro turns
  induction turns with
  | zero =>
    intro d b hb _
    cases b with
    | nil => exact ⟨d.calls, by simp [Destination.writeAllLoop]⟩
    | cons x b => simp at hb
  | succ turns ih =>
    intro d b hb hd
    cases b with
    | nil => exact ⟨d.calls, by simp [Destination.writeAllLoop]⟩
    | cons x b =>
      obtain ⟨n, h1, h2⟩ := hd d.calls (x :: b).length
      have hn : 1 ≤ n := by simp only [List.length_cons] at h2; omega
      unfold Destination.writeAllLoop Destination.write
      rw [h1]
      simp only [bind, Except.bind]
      rw [show bailIf (decide (min n (x :: b).length = 0)) = .ok () from by
        rw [decide_eq_false (by simp only [List.length_cons]; omega)]; rfl]
      have hd' : TakesAtLeast 1 { d with data := d.data ++ (x :: b).take n, calls := d.calls + 1 } := hd
      obtain ⟨c, hc⟩ := ih _ ((x :: b).drop (min n (x :: b).length))
        (by simp only [List.length_drop, List.length_cons] at *; omega) hd'
      refine ⟨c, ?_⟩
      dsimp only
      rw [hc]
      dsimp only
      congr 2
      rw [List.append_assoc]
      congr 1
      by_cases h : n ≤ (x :: b).length
      · rw [Nat.min_eq_left h, List.take_append_drop]
      · rw [Nat.min_eq_right (by omega), List.take_of_length_le (by omega), List.drop_length, List.append_nil]

theorem takes_mono {k l : Nat} {d : Destination} (h : TakesAtLeast k d) (hl : l ≤ k) : TakesAtLeast l d := by
  intro c n
  obtain ⟨m, h1, h2⟩ := h c n
  exact ⟨m, h1, by omega⟩

theorem writeAll_same {s : Stream} {k : Nat} {d : Destination} (h : Same s k d) (hk : 0 < k) (b : Bytes) :
    ∃ d', d.writeAll b = .ok d' ∧ Same (s.write b) k d' := by
  obtain ⟨c, hc⟩ := writeAllLoop_patient b.length d b (Nat.le_refl _) (takes_mono h.2 hk)
  refine ⟨_, hc, ?_, h.2⟩
  rw [h.1, stream_append]

theorem write_same {s : Stream} {k : Nat} {d : Destination} (h : Same s k d) {b : Bytes} (hb : b.length ≤ k) :
    ∃ n d', d.write b = .ok (n, d') ∧ Same (s.write b) k d' := by
  obtain ⟨n, h1, h2⟩ := h.2 d.calls b.length
  unfold Destination.write
  rw [h1]
  refine ⟨_, _, rfl, ?_, h.2⟩
  rw [h.1, stream_append, List.take_of_length_le (by omega)]

theorem pieces_same {k : Nat} (hk : 0 < k) : ∀ (bs : List Bytes) {s : Stream} {d : Destination}, Same s k d →
    ∃ d', forLoop bs d Destination.writeAll = .ok d' ∧ Same (s.write bs.flatten) k d' := by
  intro bs
  induction bs with
  | nil =>
    intro s d h
    refine ⟨d, forLoop_nil .., ?_⟩
    rw [List.flatten_nil, h.1, stream_append, List.append_nil, ← h.1]
    exact h
  | cons b bs ih =>
    intro s d h
    obtain ⟨d1, h1, h2⟩ := writeAll_same h hk b
    obtain ⟨d2, h3, h4⟩ := ih h2
    refine ⟨d2, by rw [forLoop_cons, h1]; exact h3, ?_⟩
    rw [List.flatten_cons]
    rw [h.1, stream_append] at h4 ⊢
    rw [stream_append] at h4
    rw [← List.append_assoc]
    exact h4

theorem pieces_flatten (h : PntsHeader) : h.pieces.flatten = h.bytes := by
  have : (h.magic.map fun x => [x]).flatten = h.magic := by
    induction h.magic with
    | nil => rfl
    | cons x xs ih => rw [List.map_cons, List.flatten_cons, ih]; rfl
  unfold PntsHeader.pieces PntsHeader.bytes
  rw [List.flatten_append, this]
  simp

/-- The same result, up to where the bytes are. -/
def Agree (k : Nat) : Out Stream → Out Destination → Prop
  | .ok s, y => ∃ d, y = .ok d ∧ Same s k d
  | .error e, y => y = .error e

theorem column_agree {w : PntsWriter} {k : Nat} (hk : 0 < k) {s : Stream} {d : Destination} (h : Same s k d) (m : Member) :
    Agree k (w.writeColumn s m) (w.writeColumnTo d m) := by
  unfold PntsWriter.writeColumn PntsWriter.writeColumnTo
  dsimp only
  cases hc : ColumnarBuffer.getAttributeRangeRef w.cachedPoints m.definition ⟨0, len w.cachedPoints⟩ with
  | error e => rfl
  | ok column =>
    simp only [bind, Except.bind]
    obtain ⟨d1, h1, h2⟩ := writeAll_same h hk column
    rw [h1]
    dsimp only
    by_cases hp : alignTo (m.size * len w.cachedPoints) maxAlignment - m.size * len w.cachedPoints ≠ 0
    · rw [if_pos hp, if_pos hp]
      exact writeAll_same h2 hk _
    · rw [if_neg hp, if_neg hp]
      exact ⟨d1, rfl, h2⟩

theorem columns_agree {w : PntsWriter} {k : Nat} (hk : 0 < k) : ∀ (ms : List Member) {s : Stream} {d : Destination},
    Same s k d → Agree k (forLoop ms s w.writeColumn) (forLoop ms d w.writeColumnTo) := by
  intro ms
  induction ms with
  | nil => intro s d h; exact ⟨d, forLoop_nil .., h⟩
  | cons m ms ih =>
    intro s d h
    rw [forLoop_cons, forLoop_cons]
    have := column_agree (w := w) hk h m
    cases hs : w.writeColumn s m with
    | error e => rw [hs] at this; rw [show w.writeColumnTo d m = _ from this]; rfl
    | ok s1 =>
      rw [hs] at this
      obtain ⟨d1, h1, h2⟩ := this
      rw [h1]
      exact ih h2

theorem body_agree {w : PntsWriter} {k : Nat} (hk : 0 < k) {s : Stream} {d : Destination} (h : Same s k d) :
    Agree k (w.writeFeatureTableBody s) (w.writeFeatureTableBodyTo d) := by
  unfold PntsWriter.writeFeatureTableBody PntsWriter.writeFeatureTableBodyTo
  have := columns_agree (w := w) hk w.defaultLayout.attributes h
  cases hs : forLoop w.defaultLayout.attributes s w.writeColumn with
  | error e => rw [hs] at this; rw [show forLoop _ d w.writeColumnTo = _ from this]; rfl
  | ok s1 =>
    rw [hs] at this
    obtain ⟨d1, h1, h2⟩ := this
    rw [h1]
    simp only [bind, Except.bind]
    rw [show s1.pos = d1.data.length from by rw [h2.1]]
    by_cases hp : alignTo d1.data.length 8 - d1.data.length > 0
    · rw [if_pos hp, if_pos hp]
      exact writeAll_same h2 hk _
    · rw [if_neg hp, if_neg hp]
      exact ⟨d1, rfl, h2⟩

/-- The stream is at its end and has these bytes at its beginning. -/
def Begins (p : Bytes) (s : Stream) : Prop := ∃ q, s = ⟨p ++ q, (p ++ q).length⟩

theorem Begins.write {p : Bytes} {s : Stream} (h : Begins p s) (b : Bytes) : Begins p (s.write b) := by
  obtain ⟨q, rfl⟩ := h
  exact ⟨q ++ b, by rw [stream_append, List.append_assoc]⟩

theorem Begins.column {w : PntsWriter} {p : Bytes} {s s' : Stream} (h : Begins p s) {m : Member}
    (hs : w.writeColumn s m = .ok s') : Begins p s' := by
  unfold PntsWriter.writeColumn at hs
  dsimp only at hs
  cases hc : ColumnarBuffer.getAttributeRangeRef w.cachedPoints m.definition ⟨0, len w.cachedPoints⟩ with
  | error e => rw [hc] at hs; cases hs
  | ok column =>
    rw [hc] at hs
    simp only [bind, Except.bind] at hs
    split at hs <;> cases hs
    · exact (h.write _).write _
    · exact h.write _

theorem Begins.columns {w : PntsWriter} {p : Bytes} : ∀ (ms : List Member) {s s' : Stream}, Begins p s →
    forLoop ms s w.writeColumn = .ok s' → Begins p s' := by
  intro ms
  induction ms with
  | nil => intro s s' h hs; rw [forLoop_nil] at hs; cases hs; exact h
  | cons m ms ih =>
    intro s s' h hs
    rw [forLoop_cons] at hs
    cases hm : w.writeColumn s m with
    | error e => rw [hm] at hs; cases hs
    | ok s1 => rw [hm] at hs; exact ih (h.column hm) hs

theorem Begins.body {w : PntsWriter} {p : Bytes} {s s' : Stream} (h : Begins p s)
    (hs : w.writeFeatureTableBody s = .ok s') : Begins p s' := by
  unfold PntsWriter.writeFeatureTableBody at hs
  cases hm : forLoop w.defaultLayout.attributes s w.writeColumn with
  | error e => rw [hm] at hs; cases hs
  | ok s1 =>
    rw [hm] at hs
    simp only [bind, Except.bind] at hs
    split at hs <;> cases hs
    · exact (h.columns _ hm).write _
    · exact h.columns _ hm

end Pasture.Tiles3d

namespace Pasture.Props

open Spec Spec.Pnts Tiles3d BorrowedBuffer Las

theorem toU32_ok {n m : Nat} (h : toU32 n = .ok m) : m = n ∧ n < 2 ^ 32 := by
  unfold toU32 at h
  split at h
  · rename_i hn
    cases h
    exact ⟨rfl, hn⟩
  · cases h

theorem header_field {a b c d e f : Nat} {rest : Bytes} (hc : c < 2 ^ 32) (he : e < 2 ^ 32) :
    field (PntsHeader.bytes ⟨magicBytes, a, b, c, d, e, f⟩ ++ rest) 3 = c ∧
      field (PntsHeader.bytes ⟨magicBytes, a, b, c, d, e, f⟩ ++ rest) 5 = e := by
  constructor
  · have := field_at (pre := magicBytes ++ natLE 4 a ++ natLE 4 b)
      (post := natLE 4 d ++ natLE 4 e ++ natLE 4 f ++ rest) (k := 3) (n := c) (by simp [magicBytes, natLE_length]) hc
    simp only [PntsHeader.bytes, List.append_assoc] at this ⊢
    exact this
  · have := field_at (pre := magicBytes ++ natLE 4 a ++ natLE 4 b ++ natLE 4 c ++ natLE 4 d)
      (post := natLE 4 f ++ rest) (k := 5) (n := e) (by simp [magicBytes, natLE_length]) he
    simp only [PntsHeader.bytes, List.append_assoc] at this ⊢
    exact this

/-- **C97 (partial)**: a destination that never fails and takes at least as many bytes at once as the two JSON headers
    of the file have (fields 3 and 5 of its header) ends up with the whole file. -/
theorem C97_partial (J : JsonText) {w w' : PntsWriter} {d : Destination} {k : Nat} (hw : w.writer = ⟨[], 0⟩)
    (hd : d.data = []) (hk : 0 < k) (ht : TakesAtLeast k d) (h : w.flush J = .ok w')
    (h3 : field w'.writer.data 3 ≤ k) (h5 : field w'.writer.data 5 ≤ k) :
    ∃ d', w.flushTo J d = .ok d' ∧ d'.data = w'.writer.data := by
  unfold PntsWriter.flush at h
  unfold PntsWriter.flushTo
  by_cases hf : ¬ w.requiresFlush
  · rw [if_pos hf] at h ⊢
    cases h
    exact ⟨d, rfl, by rw [hd, hw]⟩
  · rw [if_neg hf] at h ⊢
    have same : Same w.writer k d := ⟨by rw [hw, hd]; rfl, ht⟩
    unfold PntsWriter.writeCachedPoints at h
    unfold PntsWriter.writeCachedPointsTo
    cases htable : w.createFeatureTable with
    | error e => rw [htable] at h; cases h
    | ok table =>
      rw [htable] at h
      simp only [bind, Except.bind] at h ⊢
      generalize featureTableHeader J table headerLength = T at *
      generalize alignTo (headerLength + T.length + w.calcFeatureTableBodyLength) 8 - (headerLength + T.length) = B at *
      generalize jsonHeader J (.object []) (headerLength + T.length + B) = E at *
      cases u1 : toU32 (headerLength + T.length + B + E.length + 0) with
      | error e => rw [u1] at h; cases h
      | ok total =>
      rw [u1] at h
      dsimp only at h ⊢
      cases u2 : toU32 T.length with
      | error e => rw [u2] at h; cases h
      | ok tl =>
      rw [u2] at h
      dsimp only at h ⊢
      cases u3 : toU32 B with
      | error e => rw [u3] at h; cases h
      | ok bl =>
      rw [u3] at h
      dsimp only at h ⊢
      cases u4 : toU32 E.length with
      | error e => rw [u4] at h; cases h
      | ok el =>
      rw [u4] at h
      dsimp only at h ⊢
      cases u5 : toU32 0 with
      | error e => rw [u5] at h; cases h
      | ok zl =>
      rw [u5] at h
      dsimp only at h ⊢
      obtain ⟨rfl, hT⟩ := toU32_ok u2
      obtain ⟨rfl, hE⟩ := toU32_ok u4
      obtain ⟨d1, e1, s1⟩ := pieces_same hk (PntsHeader.pieces ⟨magicBytes, 1, total, T.length, bl, E.length, zl⟩) same
      rw [pieces_flatten] at s1
      rw [e1]
      dsimp only
      cases hb : w.writeFeatureTableBody ((w.writer.write (PntsHeader.bytes ⟨magicBytes, 1, total, T.length, bl, E.length,
          zl⟩)).write T) with
      | error e => rw [hb] at h; cases h
      | ok s3 =>
        rw [hb] at h
        cases h
        have begins : Begins (PntsHeader.bytes ⟨magicBytes, 1, total, T.length, bl, E.length, zl⟩) (s3.write E) := by
          refine Begins.write (Begins.body (Begins.write ⟨[], ?_⟩ T) hb) E
          rw [hw]
          exact stream_append [] _ |>.trans (by rw [List.nil_append, List.append_nil])
        obtain ⟨q, hq⟩ := begins
        have hq : (s3.write E).data = _ := congrArg Stream.data hq
        obtain ⟨f3, f5⟩ := header_field (a := 1) (b := total) (d := bl) (f := zl) (rest := q) hT hE
        dsimp only at h3 h5
        rw [hq, f3] at h3
        rw [hq, f5] at h5
        obtain ⟨n, d2, e2, s2⟩ := write_same s1 h3
        rw [e2]
        dsimp only
        have ag := body_agree (w := w) hk s2
        rw [hb] at ag
        obtain ⟨d3, e3, s4⟩ := ag
        rw [e3]
        dsimp only
        obtain ⟨n', d4, e4, s5⟩ := write_same s4 h5
        rw [e4]
        exact ⟨d4, rfl, (congrArg Stream.data s5.1).symm⟩

/-- `write_all` on any destination, however it behaves: if it succeeds, all bytes have arrived. -/
theorem C97_write_all {d d' : Destination} {b : Bytes} (h : d.writeAll b = .ok d') : d'.data = d.data ++ b := by
  unfold Destination.writeAll at h
  generalize b.length = turns at h
  induction turns generalizing d b with
  | zero =>
    cases b with
    | nil => simp only [Destination.writeAllLoop] at h; cases h; simp
    | cons x b => simp only [Destination.writeAllLoop] at h; cases h
  | succ turns ih =>
    cases b with
    | nil => simp only [Destination.writeAllLoop] at h; cases h; simp
    | cons x b =>
      unfold Destination.writeAllLoop Destination.write at h
      split at h
      · cases h
      · rename_i k hk
        simp only [bind, Except.bind] at h
        by_cases hz : min k (x :: b).length = 0
        · rw [decide_eq_true hz] at h; cases h
        · rw [decide_eq_false hz] at h
          have := ih h
          rw [this]
          dsimp only
          rw [List.append_assoc]
          congr 1
          by_cases hl : k ≤ (x :: b).length
          · rw [Nat.min_eq_left hl, List.take_append_drop]
          · rw [Nat.min_eq_right (by omega), List.take_of_length_le (by omega), List.drop_length, List.append_nil]

/-- Every JSON document becomes `{}`. -/
def braces : JsonText := ⟨fun _ => [0x7b#8, 0x7d#8], fun _ => some (.object [])⟩

/-- **C97 violated**: a destination takes a single byte at once, as `std::io::Write` allows. Writing succeeds, but all
    but the first byte of the two JSON headers is missing: the file has 33 bytes instead of 40. -/
theorem C97_violated : ∃ (w w' : PntsWriter) (d' : Destination), openPnts tileLayout none = .ok w ∧
    w.flush braces = .ok w' ∧ TakesAtLeast 1 (taking 1) ∧ w.flushTo braces (taking 1) = .ok d' ∧
    w'.writer.data.length = 40 ∧ d'.data.length = 33 := by
  have h : (match openPnts tileLayout none with
      | .error _ => none
      | .ok w => match w.flush braces, w.flushTo braces (taking 1) with
        | .ok w', .ok d' => some (w'.writer.data.length, d'.data.length)
        | _, _ => none) = some (40, 33) := by decide +kernel
  cases hw : openPnts tileLayout none with
  | error e => rw [hw] at h; cases h
  | ok w =>
    rw [hw] at h
    dsimp only at h
    cases h1 : w.flush braces with
    | error e => rw [h1] at h; cases h
    | ok w' =>
      cases h2 : w.flushTo braces (taking 1) with
      | error e => rw [h1, h2] at h; cases h
      | ok d' =>
        rw [h1, h2] at h
        have h := Prod.mk.inj (Option.some.inj h)
        exact ⟨w, w', d', rfl, h1, fun _ _ => ⟨1, rfl, Nat.min_le_right _ _⟩, h2, h.1, h.2⟩

/-- The hypotheses of `C97_partial` hold for a destination that takes 8 bytes at once. -/
example : ∃ (w w' : PntsWriter), openPnts tileLayout none = .ok w ∧ w.writer = ⟨[], 0⟩ ∧ w.flush braces = .ok w' ∧
    TakesAtLeast 8 (taking 8) ∧ field w'.writer.data 3 ≤ 8 ∧ field w'.writer.data 5 ≤ 8 := by
  have h : (match openPnts tileLayout none with
      | .error _ => none
      | .ok w => match w.flush braces with
        | .ok w' => some (w.writer.data, w.writer.pos, field w'.writer.data 3, field w'.writer.data 5)
        | _ => none) = some ([], 0, 4, 8) := by decide +kernel
  cases hw : openPnts tileLayout none with
  | error e => rw [hw] at h; cases h
  | ok w =>
    rw [hw] at h
    dsimp only at h
    cases h1 : w.flush braces with
    | error e => rw [h1] at h; cases h
    | ok w' =>
      rw [h1] at h
      obtain ⟨a, b, c, e⟩ := by simpa using h
      refine ⟨w, w', rfl, ?_, h1, fun _ _ => ⟨8, rfl, Nat.min_le_right _ _⟩, by omega, by omega⟩
      cases hs : w.writer
      rw [hs] at a b
      cases a; cases b; rfl

end Pasture.Props
