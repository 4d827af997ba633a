import Verif.Lemmas.PntsCache

/-!
# Lemmas on the writer of 3D Tiles point clouds: the file
-/

namespace Pasture.Tiles3d

open Spec Spec.Pnts BorrowedBuffer BorrowedMutBuffer OwningBuffer Props Las PntsWriter

theorem alignTo_eight (n : Nat) : alignTo n 8 = up8 n := by
  unfold alignTo up8
  rw [if_neg (by omega)]
  congr 2

theorem up8_spec (n : Nat) : n ≤ up8 n ∧ up8 n % 8 = 0 ∧ up8 n < n + 8 := by unfold up8; omega

theorem up8_same {n : Nat} (h : n % 8 = 0) : up8 n = n := by unfold up8; omega

theorem up8_add {a b : Nat} (h : a % 8 = 0) : up8 (a + b) = a + up8 b := by unfold up8; omega

theorem stream_append (d b : Bytes) : (⟨d, d.length⟩ : Stream).write b = ⟨d ++ b, (d ++ b).length⟩ := by
  have := write_at_end (a := d) (b := b) (t := [])
  simp only [List.append_nil, List.drop_nil] at this
  rw [this, List.length_append]

theorem window_mid {pre x post : Bytes} {o n : Nat} (ho : pre.length = o) (hn : x.length = n) :
    window (pre ++ x ++ post) o n = x := by
  subst ho hn
  unfold window
  simp

theorem window_mid' {pre x post : Bytes} {o n : Nat} (ho : pre.length = o) (hn : x.length = n) :
    window (pre ++ (x ++ post)) o n = x := by rw [← List.append_assoc]; exact window_mid ho hn

/-! ## The attributes in the file -/

/-- The name of an attribute in the file. -/
def semOf (d : AttrDef) : String := (semanticsName d).getD ""

/-- The attributes in the file. -/
def partsFrom (col : Member → Bytes) : Nat → List Member → List Part
  | _, [] => []
  | o, m :: ms => ⟨semOf m.definition, o, col m⟩ :: partsFrom col (o + up8 (col m).length) ms

/-- An attribute with padding. -/
def padded (b : Bytes) : Bytes := b ++ zeros (up8 b.length - b.length)

theorem padded_length (b : Bytes) : (padded b).length = up8 b.length := by
  have := up8_spec b.length
  simp only [padded, zeros, List.length_append, List.length_replicate]
  omega

/-- The bytes of the body. -/
def bodyBytes (col : Member → Bytes) (ms : List Member) : Bytes := (ms.map fun m => padded (col m)).flatten

theorem bodyBytes_cons (col : Member → Bytes) (m : Member) (ms : List Member) :
    bodyBytes col (m :: ms) = padded (col m) ++ bodyBytes col ms := by simp [bodyBytes]

theorem parts_packed (col : Member → Bytes) : ∀ (ms : List Member) (o : Nat), PackedFrom o (partsFrom col o ms) := by
  intro ms
  induction ms with
  | nil => intro o; trivial
  | cons m ms ih => intro o; exact ⟨rfl, ih _⟩

theorem parts_sum (col : Member → Bytes) : ∀ (ms : List Member) (o : Nat),
    ((partsFrom col o ms).map fun p => up8 p.data.length).sum = (bodyBytes col ms).length ∧
      (bodyBytes col ms).length % 8 = 0 := by
  intro ms
  induction ms with
  | nil => intro o; exact ⟨rfl, rfl⟩
  | cons m ms ih =>
    intro o
    obtain ⟨h1, h2⟩ := ih (o + up8 (col m).length)
    have := up8_spec (col m).length
    rw [bodyBytes_cons, List.length_append, padded_length]
    simp only [partsFrom, List.map_cons, List.sum_cons, h1]
    exact ⟨trivial, by omega⟩

theorem parts_bounds (col : Member → Bytes) : ∀ (ms : List Member) (o : Nat), o % 8 = 0 → ∀ p ∈ partsFrom col o ms,
    p.offset % 8 = 0 ∧ o ≤ p.offset ∧ p.offset + p.data.length ≤ o + (bodyBytes col ms).length := by
  intro ms
  induction ms with
  | nil => intro o _ p hp; cases hp
  | cons m ms ih =>
    intro o ho p hp
    have := up8_spec (col m).length
    rw [bodyBytes_cons, List.length_append, padded_length]
    rcases List.mem_cons.1 hp with rfl | hp
    · exact ⟨ho, Nat.le_refl _, by show o + (col m).length ≤ _; omega⟩
    · obtain ⟨h1, h2, h3⟩ := ih _ (by omega) p hp
      exact ⟨h1, by omega, by omega⟩

theorem parts_apart (col : Member → Bytes) : ∀ (ms : List Member) (o : Nat), o % 8 = 0 →
    (partsFrom col o ms).Pairwise fun p q => p.offset + p.data.length ≤ q.offset := by
  intro ms
  induction ms with
  | nil => intro o _; exact .nil
  | cons m ms ih =>
    intro o ho
    have := up8_spec (col m).length
    refine List.Pairwise.cons ?_ (ih _ (by omega))
    intro q hq
    have := (parts_bounds col ms _ (by omega) q hq).2.1
    show o + (col m).length ≤ _
    omega

theorem parts_stored (col : Member → Bytes) (post : Bytes) : ∀ (ms : List Member) (o : Nat) (pre : Bytes), o % 8 = 0 →
    ∀ p ∈ partsFrom col o ms,
      window (pre ++ bodyBytes col ms ++ post) (pre.length + (p.offset - o)) p.data.length = p.data := by
  intro ms
  induction ms with
  | nil => intro o pre _ p hp; cases hp
  | cons m ms ih =>
    intro o pre ho p hp
    have hu := up8_spec (col m).length
    rw [bodyBytes_cons]
    rcases List.mem_cons.1 hp with rfl | hp
    · dsimp only
      rw [Nat.sub_self, Nat.add_zero]
      unfold padded
      rw [List.append_assoc, List.append_assoc, List.append_assoc]
      exact window_mid' rfl rfl
    · have h := ih (o + up8 (col m).length) (pre ++ padded (col m)) (by omega) p hp
      have hb := (parts_bounds col ms _ (by omega) p hp).2.1
      rw [List.length_append, padded_length] at h
      rw [show pre.length + (p.offset - o) = pre.length + up8 (col m).length + (p.offset - (o + up8 (col m).length)) by
        omega]
      refine Eq.trans ?_ h
      simp only [List.append_assoc]

theorem parts_columns (col : Member → Bytes) : ∀ (ms : List Member) (o : Nat),
    (partsFrom col o ms).map (fun p => (p.semantic, p.data)) = ms.map fun m => (semOf m.definition, col m) := by
  intro ms
  induction ms with
  | nil => intro o; rfl
  | cons m ms ih => intro o; simp only [partsFrom, List.map_cons, ih]

/-! ## The feature table -/

theorem pointSemantics_eq (col : Member → Bytes) {n : Nat} : ∀ (ms : List Member) (o : Nat),
    (∀ m ∈ ms, (semanticsName m.definition).isSome) → (∀ m ∈ ms, (col m).length = m.size * n) →
    pointSemantics ms (cumulativeOffsets n o ms) =
      .ok ((partsFrom col o ms).map fun p => (p.semantic, .reference p.offset none)) := by
  intro ms
  induction ms with
  | nil => intro o _ _; rfl
  | cons m ms ih =>
    intro o hs hc
    obtain ⟨s, hsem⟩ := Option.isSome_iff_exists.1 (hs m (by simp))
    have ih := ih (o + up8 (col m).length) (fun m hm => hs m (by simp [hm])) (fun m hm => hc m (by simp [hm]))
    unfold pointSemantics at ih ⊢
    have hcm := hc m (by simp)
    have e : alignTo (m.size * n) maxAlignment = up8 (col m).length := by
      rw [hcm]; exact alignTo_eight _
    simp only [expectSome, bind, Except.bind, pure, Except.pure] at ih
    simp only [cumulativeOffsets, e, List.zip_cons_cons, List.mapM_cons, hsem, expectSome, partsFrom, List.map_cons,
      semOf, bind, Except.bind, pure, Except.pure, Option.getD_some]
    rw [ih]

/-- The names in the feature table. -/
structure Named (ms : List Member) : Prop where
  known : ∀ m ∈ ms, (semanticsName m.definition).isSome
  distinct : (ms.map fun m => semOf m.definition).Nodup

theorem semOf_mem {d : AttrDef} (h : (semanticsName d).isSome) : semOf d ∈ ["POSITION", "RGB", "RGBA", "NORMAL"] := by
  unfold semOf semanticsName at *
  grind

theorem featureTable_eq {w : PntsWriter} {col : Member → Bytes} (hn : Named w.defaultLayout.attributes)
    (hc : ∀ m ∈ w.defaultLayout.attributes, (col m).length = m.size * len w.cachedPoints) :
    ∃ t, w.createFeatureTable = .ok t ∧ (t.map fun (k, v) => (k, v.toJson)).Perm
      (tableEntries (len w.cachedPoints) w.rtcCenter (partsFrom col 0 w.defaultLayout.attributes)) := by
  have h1 := pointSemantics_eq col (n := len w.cachedPoints) _ 0 hn.known hc
  have hkeys : ∀ k, k ∉ ["POSITION", "RGB", "RGBA", "NORMAL"] →
      k ∉ ((partsFrom col 0 w.defaultLayout.attributes).map
        fun p => (p.semantic, FeatureValue.reference p.offset none)).map Prod.fst := by
    intro k hk hin
    rw [List.map_map] at hin
    have := congrArg (List.map Prod.fst) (parts_columns col w.defaultLayout.attributes 0)
    rw [List.map_map, List.map_map] at this
    have hin : k ∈ (partsFrom col 0 w.defaultLayout.attributes).map (fun p => p.semantic) := hin
    rw [show (partsFrom col 0 w.defaultLayout.attributes).map (fun p => p.semantic) = _ from this] at hin
    obtain ⟨m, hm, rfl⟩ := List.mem_map.1 hin
    exact hk (semOf_mem (hn.known m hm))
  have hj : ∀ ps : List Part, (ps.map fun p => (p.semantic, FeatureValue.reference p.offset none)).map
      (fun (k, v) => (k, v.toJson)) = ps.map fun p => (p.semantic, .object [("byteOffset", .int p.offset)]) := by
    intro ps
    rw [List.map_map]
    rfl
  unfold createFeatureTable
  dsimp only
  rw [h1]
  cases hr : w.rtcCenter with
  | none =>
    refine ⟨_, rfl, ?_⟩
    rw [insertEntry_new (hkeys _ (by decide)), List.map_cons, hj]
    exact List.Perm.refl _
  | some c =>
    refine ⟨_, rfl, ?_⟩
    rw [insertEntry_new (hkeys _ (by decide)), insertEntry_new (by
      rw [List.map_cons, List.mem_cons]
      rintro (h | h)
      · exact absurd (show "RTC_CENTER" = "POINTS_LENGTH" from h) (by decide)
      · exact hkeys _ (by decide) h), List.map_cons, List.map_cons, hj]
    exact List.Perm.swap _ _ _

/-! ## The body -/

theorem body_loop {w : PntsWriter} {col : Member → Bytes} : ∀ (ms : List Member) (d : Bytes),
    (∀ m ∈ ms, ColumnarBuffer.getAttributeRangeRef w.cachedPoints m.definition ⟨0, len w.cachedPoints⟩ = .ok (col m) ∧
      (col m).length = m.size * len w.cachedPoints) →
    forLoop ms (⟨d, d.length⟩ : Stream) w.writeColumn =
      .ok ⟨d ++ bodyBytes col ms, (d ++ bodyBytes col ms).length⟩ := by
  intro ms
  induction ms with
  | nil => intro d _; simp [bodyBytes, forLoop_nil]
  | cons m ms ih =>
    intro d h
    obtain ⟨h1, h2⟩ := h m (by simp)
    have step : w.writeColumn ⟨d, d.length⟩ m = .ok ⟨d ++ padded (col m), (d ++ padded (col m)).length⟩ := by
      unfold writeColumn
      dsimp only
      rw [h1]
      show (if alignTo (m.size * len w.cachedPoints) 8 - m.size * len w.cachedPoints ≠ 0 then _ else _) = _
      rw [← h2, alignTo_eight, stream_append]
      unfold padded
      by_cases hz : up8 (col m).length - (col m).length = 0
      · rw [if_neg (by omega), hz]
        simp [zeros]
        rfl
      · rw [if_pos hz, stream_append, List.append_assoc]
        rfl
    rw [forLoop_cons, step]
    show forLoop ms _ _ = _
    rw [ih _ (fun m hm => h m (by simp [hm])), bodyBytes_cons, List.append_assoc]

theorem body_length {w : PntsWriter} {col : Member → Bytes}
    (h : ∀ m ∈ w.defaultLayout.attributes, (col m).length = m.size * len w.cachedPoints) :
    w.calcFeatureTableBodyLength = (bodyBytes col w.defaultLayout.attributes).length := by
  unfold calcFeatureTableBodyLength bodyBytes
  rw [List.length_flatten, List.map_map]
  congr 1
  apply List.map_congr_left
  intro m hm
  simp only [Function.comp_apply, padded_length, h m hm]
  rw [Nat.mul_comm]
  exact alignTo_eight _

theorem field_at {pre post : Bytes} {k n : Nat} (hp : pre.length = 4 * k) (hn : n < 2 ^ 32) :
    field (pre ++ natLE 4 n ++ post) k = n := by
  unfold field
  rw [window_mid hp (natLE_length 4 n), ← leNat_eq, leNat_natLE]
  exact Nat.mod_eq_of_lt hn

/-- A file from its pieces. -/
def fileOf (J : JsonText) (v : Json) (body : Bytes) : Bytes :=
  let table := jsonHeader J v 28
  let batch := jsonHeader J (.object []) (28 + table.length + body.length)
  let header : PntsHeader := ⟨magicBytes, 1, 28 + table.length + body.length + batch.length, table.length, body.length,
    batch.length, 0⟩
  header.bytes ++ table ++ body ++ batch

theorem jsonHeader_length (J : JsonText) (v : Json) (k : Nat) :
    k + (jsonHeader J v k).length = up8 (k + (J.toText v).length) := by
  unfold jsonHeader
  have := up8_spec (k + (J.toText v).length)
  simp only [List.length_append, List.length_replicate, alignTo_eight]
  omega

theorem header_length (a b c d e f : Nat) : (PntsHeader.bytes ⟨magicBytes, a, b, c, d, e, f⟩).length = 28 := by
  simp [PntsHeader.bytes, natLE_length, magicBytes]

theorem fileOf_isPnts {J : JsonText} {col : Member → Bytes} {ms : List Member} {entries : List (String × Json)} {n : Nat}
    {center : Option (P3 F64)} (he : entries.Perm (tableEntries n center (partsFrom col 0 ms)))
    (hs : fileSize J entries (partsFrom col 0 ms) < 2 ^ 32) :
    IsPnts J (fileOf J (.object entries) (bodyBytes col ms)) n center (partsFrom col 0 ms) ∧
      (fileOf J (.object entries) (bodyBytes col ms)).length = fileSize J entries (partsFrom col 0 ms) := by
  have hsum := parts_sum col ms 0
  have ht := jsonHeader_length J (.object entries) 28
  generalize hB : bodyBytes col ms = B at *
  have hb := jsonHeader_length J (.object []) (28 + (jsonHeader J (.object entries) 28).length + B.length)
  unfold fileOf
  dsimp only
  generalize hT : jsonHeader J (.object entries) 28 = T at *
  generalize hE : jsonHeader J (.object []) (28 + T.length + B.length) = E at *
  have hsize : fileSize J entries (partsFrom col 0 ms) = 28 + T.length + B.length + E.length := by
    unfold fileSize
    rw [hsum.1, ← ht, ← hb]
  rw [hsize] at hs
  have hu := up8_spec (28 + (J.toText (.object entries)).length)
  have hH := header_length 1 (28 + T.length + B.length + E.length) T.length B.length E.length 0
  generalize hHd : PntsHeader.bytes ⟨magicBytes, 1, 28 + T.length + B.length + E.length, T.length, B.length, E.length, 0⟩
    = H at *
  have hlen : (H ++ T ++ B ++ E).length = 28 + T.length + B.length + E.length := by
    simp only [List.length_append, hH]
  have f : ∀ k v (pre post : Bytes), H = pre ++ natLE 4 v ++ post → pre.length = 4 * k → v < 2 ^ 32 →
      field (H ++ T ++ B ++ E) k = v := by
    intro k v pre post h1 h2 h3
    rw [h1]
    simp only [List.append_assoc]
    have := field_at (post := post ++ (T ++ (B ++ E))) h2 h3
    simpa only [List.append_assoc] using this
  have hHe : H = magicBytes ++ natLE 4 1 ++ natLE 4 (28 + T.length + B.length + E.length) ++ natLE 4 T.length ++
    natLE 4 B.length ++ natLE 4 E.length ++ natLE 4 0 := hHd.symm
  have f1 : field (H ++ T ++ B ++ E) 1 = 1 :=
    f 1 _ (magicBytes)
      (natLE 4 (28 + T.length + B.length + E.length) ++ natLE 4 T.length ++ natLE 4 B.length ++ natLE 4 E.length ++ natLE 4 0)
      (by rw [hHe]; simp only [List.append_assoc]) (by simp [magicBytes]) (by omega)
  have f2 : field (H ++ T ++ B ++ E) 2 = 28 + T.length + B.length + E.length :=
    f 2 _ (magicBytes ++ natLE 4 1)
      (natLE 4 T.length ++ natLE 4 B.length ++ natLE 4 E.length ++ natLE 4 0)
      (by rw [hHe]; simp only [List.append_assoc]) (by simp [natLE_length, magicBytes]) (by omega)
  have f3 : field (H ++ T ++ B ++ E) 3 = T.length :=
    f 3 _ (magicBytes ++ natLE 4 1 ++ natLE 4 (28 + T.length + B.length + E.length))
      (natLE 4 B.length ++ natLE 4 E.length ++ natLE 4 0)
      (by rw [hHe]; simp only [List.append_assoc]) (by simp [natLE_length, magicBytes]) (by omega)
  have f4 : field (H ++ T ++ B ++ E) 4 = B.length :=
    f 4 _ (magicBytes ++ natLE 4 1 ++ natLE 4 (28 + T.length + B.length + E.length) ++ natLE 4 T.length)
      (natLE 4 E.length ++ natLE 4 0)
      (by rw [hHe]; simp only [List.append_assoc]) (by simp [natLE_length, magicBytes]) (by omega)
  have f5 : field (H ++ T ++ B ++ E) 5 = E.length :=
    f 5 _ (magicBytes ++ natLE 4 1 ++ natLE 4 (28 + T.length + B.length + E.length) ++ natLE 4 T.length ++ natLE 4 B.length)
      (natLE 4 0)
      (by rw [hHe]) (by simp [natLE_length, magicBytes]) (by omega)
  have f6 : field (H ++ T ++ B ++ E) 6 = 0 :=
    f 6 _ (magicBytes ++ natLE 4 1 ++ natLE 4 (28 + T.length + B.length + E.length) ++ natLE 4 T.length ++ natLE 4 B.length ++ natLE 4 E.length)
      ([])
      (by rw [hHe]; simp only [List.append_assoc, List.append_nil]) (by simp [natLE_length, magicBytes]) (by omega)
  have hbounds := parts_bounds col ms 0 rfl
  rw [hB] at hbounds
  refine ⟨⟨?_, f1, by rw [f2, hlen], by rw [f3, f4, f5, f6, hlen]; omega, by rw [f3, ht]; exact hu.2.1,
    by rw [f3, f4]; omega, fun p hp => (hbounds p hp).1, fun p hp => ?_, parts_apart col ms 0 rfl, fun p hp => ?_,
    ⟨entries, alignTo (28 + (J.toText (.object entries)).length) 8 - (28 + (J.toText (.object entries)).length), he, ?_⟩,
    ⟨alignTo (28 + T.length + B.length + (J.toText (.object [])).length) 8 -
      (28 + T.length + B.length + (J.toText (.object [])).length), ?_⟩⟩, by rw [hlen, hsize]⟩
  · rw [hHe]
    simp only [List.append_assoc]
    exact window_mid' (pre := []) (x := magicBytes) rfl rfl
  · rw [f4]; have := (hbounds p hp).2.2; omega
  · have := parts_stored col E ms 0 (H ++ T) rfl p hp
    rw [hB, List.length_append, hH, Nat.sub_zero] at this
    rw [f3]
    exact this
  · rw [f3, List.append_assoc, window_mid hH rfl, ← hT]
    rfl
  · rw [f3, f4, f5]
    have := window_mid (pre := H ++ T ++ B) (x := E) (post := []) (o := 28 + T.length + B.length) (n := E.length)
      (by simp only [List.length_append, hH]) rfl
    rw [List.append_nil] at this
    rw [this, ← hE]
    rfl

theorem flush_file (J : JsonText) {w : PntsWriter} (hf : w.requiresFlush = true) (hw : w.writer = ⟨[], 0⟩)
    (hn : Named w.defaultLayout.attributes) {col : Member → Bytes}
    (hc : ∀ m ∈ w.defaultLayout.attributes,
      ColumnarBuffer.getAttributeRangeRef w.cachedPoints m.definition ⟨0, len w.cachedPoints⟩ = .ok (col m) ∧
      (col m).length = m.size * len w.cachedPoints) :
    ∃ entries, entries.Perm
        (tableEntries (len w.cachedPoints) w.rtcCenter (partsFrom col 0 w.defaultLayout.attributes)) ∧
      (fileSize J entries (partsFrom col 0 w.defaultLayout.attributes) < 2 ^ 32 → ∃ file,
        w.flush J = .ok { w with writer := ⟨file, file.length⟩, requiresFlush := false } ∧
        IsPnts J file (len w.cachedPoints) w.rtcCenter (partsFrom col 0 w.defaultLayout.attributes) ∧
        file.length = fileSize J entries (partsFrom col 0 w.defaultLayout.attributes)) ∧
      (2 ^ 32 ≤ fileSize J entries (partsFrom col 0 w.defaultLayout.attributes) → w.flush J = .error .panic) := by
  obtain ⟨t, h1, h2⟩ := featureTable_eq hn (fun m hm => (hc m hm).2)
  have hlen := body_length (fun m hm => (hc m hm).2)
  have hsum := parts_sum col w.defaultLayout.attributes 0
  have hloop : ∀ d : Bytes, d.length % 8 = 0 → w.writeFeatureTableBody ⟨d, d.length⟩ =
      .ok ⟨d ++ bodyBytes col w.defaultLayout.attributes, (d ++ bodyBytes col w.defaultLayout.attributes).length⟩ := by
    intro d hd
    unfold writeFeatureTableBody
    rw [body_loop _ d hc]
    have e : up8 (d ++ bodyBytes col w.defaultLayout.attributes).length -
        (d ++ bodyBytes col w.defaultLayout.attributes).length = 0 := by
      rw [up8_same (by rw [List.length_append]; omega)]
      omega
    show (if alignTo _ 8 - _ > 0 then _ else _) = _
    rw [alignTo_eight, e]
    rfl
  refine ⟨_, h2, ?_⟩
  generalize hv : List.map (fun x : String × FeatureValue => (x.1, x.2.toJson)) t = entries at *
  have hft : featureTableHeader J t 28 = jsonHeader J (.object entries) 28 := by
    unfold featureTableHeader; rw [← hv]
  have ht := jsonHeader_length J (.object entries) 28
  have hu := up8_spec (28 + (J.toText (.object entries)).length)
  have hb := jsonHeader_length J (.object [])
    (28 + (jsonHeader J (.object entries) 28).length + (bodyBytes col w.defaultLayout.attributes).length)
  have hsize : fileSize J entries (partsFrom col 0 w.defaultLayout.attributes) =
      28 + (jsonHeader J (.object entries) 28).length + (bodyBytes col w.defaultLayout.attributes).length +
      (jsonHeader J (.object [])
        (28 + (jsonHeader J (.object entries) 28).length + (bodyBytes col w.defaultLayout.attributes).length)).length := by
    unfold fileSize
    rw [hsum.1, ← ht, ← hb]
  have hal : alignTo (28 + (jsonHeader J (.object entries) 28).length + (bodyBytes col w.defaultLayout.attributes).length) 8
      - (28 + (jsonHeader J (.object entries) 28).length) = (bodyBytes col w.defaultLayout.attributes).length := by
    rw [alignTo_eight, up8_same (by omega)]; omega
  constructor
  · intro hs
    obtain ⟨g1, g2⟩ := fileOf_isPnts h2 hs
    refine ⟨_, ?_, g1, g2⟩
    unfold PntsWriter.flush
    rw [if_neg (by rw [hf]; simp)]
    unfold writeCachedPoints
    simp only [h1, bind, Except.bind, hft, hlen, headerLength, hal, hw, Nat.add_zero]
    rw [hsize] at hs
    simp only [toU32, if_pos hs]
    rw [if_pos (by omega)]
    dsimp only
    rw [if_pos (by omega)]
    dsimp only
    rw [if_pos (by omega)]
    dsimp only
    rw [if_pos (by omega)]
    dsimp only
    rw [show (⟨[], 0⟩ : Stream) = ⟨[], ([] : Bytes).length⟩ from rfl, stream_append, stream_append, List.nil_append, hloop]
    · dsimp only
      rw [stream_append]
      rfl
    · rw [List.length_append, header_length, ht]
      exact hu.2.1
  · intro hs
    unfold PntsWriter.flush
    rw [if_neg (by rw [hf]; simp)]
    unfold writeCachedPoints
    simp only [h1, bind, Except.bind, hft, hlen, headerLength, hal, hw, Nat.add_zero]
    rw [hsize] at hs
    simp only [toU32]
    rw [if_neg (by omega)]
    rfl

end Pasture.Tiles3d
