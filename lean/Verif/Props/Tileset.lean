import Verif.Lemmas.Tileset
import Verif.Lemmas.PntsCodec
import Verif.Lemmas.Loop

/-!
# 3D Tiles tables and tilesets: C75, C76, C78
-/

namespace Pasture.Props

open Tiles3d Spec.Pnts Spec.Tileset

/-! ## C75: batch and feature tables -/

/-- **C75: batch tables.** A batch table that is written at any position `p` of a file, and read again with any size between
    that of the JSON text and that of everything written, has the same entries, and the reader is at the end of what was
    written. -/
theorem C75_batch {J : JsonText} {f : F64 → F64} (hJ : Faithful J f) {t : BatchTable} (ht : GoodBatch t) (pre post : Bytes)
    (p size : Nat) (h1 : (J.toText (.object (t.map fun (k, v) => (k, v.toJson)))).length ≤ size)
    (h2 : size ≤ (batchTableHeader J t p).length) :
    ∃ t', readBatchTable J (pre ++ batchTableHeader J t p ++ post) pre.length size p =
        .ok (t', pre.length + (batchTableHeader J t p).length) ∧ SameTable (SameEntry f) t t' := by
  obtain ⟨hv, hd⟩ := batch_json ht
  obtain ⟨v', g1, g2⟩ := header_back hJ hv hd pre post p size h1 h2
  obtain ⟨es, t', rfl, k1, k2, k3, k4⟩ := entries_back (P := BatchEntry.ofJson) g2 (by
    intro key x y hx hxy
    rw [lookup_map_snd] at hx
    obtain ⟨e, he, rfl⟩ := Option.map_eq_some_iff.1 hx
    have hm := ht.2 _ (mem_of_lookup he)
    obtain ⟨e', h, _⟩ := batch_back (e := e) (by rintro o c t rfl; exact hm) hxy
    exact ⟨e', h⟩)
  refine ⟨t', ?_, k2, ?_, ?_⟩
  · unfold readBatchTable batchTableHeader at *
    rw [g1]
    show ((es.mapM fun (k, v) => do let v ← BatchEntry.ofJson v; pure (k, v) : Out BatchTable).bind _) = _
    rw [k1]
    show Except.ok (t', _) = Except.ok (t', _)
    rw [Nat.add_assoc, header_end h1 h2 (header_padded J _ p).2]
  · intro k
    rw [← k3, lookup_map_snd]
    simp
  · intro k x y hx hy
    obtain ⟨z, h1, h2⟩ := k4 k x.toJson y (by rw [lookup_map_snd, hx]; rfl) hy
    have hm := ht.2 _ (mem_of_lookup hx)
    obtain ⟨e', h3, h4⟩ := batch_back (e := x) (by rintro o c t rfl; exact hm) h1
    rw [h3] at h2
    cases h2
    exact h4

/-- **C75: alignment.** What is written ends at a multiple of eight bytes in the file, and at the first one that is
    possible. -/
theorem C75_aligned (J : JsonText) (t : BatchTable) (u : FeatureTable) (p : Nat) :
    (p + (batchTableHeader J t p).length) % 8 = 0 ∧ (p + (featureTableHeader J u p).length) % 8 = 0 ∧
      (batchTableHeader J t p).length < (J.toText (.object (t.map fun (k, v) => (k, v.toJson)))).length + 8 ∧
      (featureTableHeader J u p).length < (J.toText (.object (u.map fun (k, v) => (k, v.toJson)))).length + 8 := by
  have key : ∀ v, (p + (jsonHeader J v p).length) % 8 = 0 ∧ (jsonHeader J v p).length < (J.toText v).length + 8 := by
    intro v
    obtain ⟨_, h⟩ := header_padded J v p
    rw [h]
    refine ⟨Nat.mod_eq_zero_of_dvd (dvd_alignTo _ _ (by omega)), ?_⟩
    have h8 := alignTo_least (p + (J.toText v).length) 8 ((p + (J.toText v).length + 7) / 8 * 8) (by omega)
      (Nat.dvd_mul_left _ _) (by omega)
    omega
  exact ⟨(key _).1, (key _).1, (key _).2, (key _).2⟩

/-- **C75: feature tables**, for entries that do not look like entries of another kind. -/
theorem C75_features_partial {J : JsonText} {f : F64 → F64} (hJ : Faithful J f) {t : FeatureTable} (ht : GoodFeatures t)
    (hu : ∀ e ∈ t, Unambiguous e.2) (pre post : Bytes) (p size : Nat)
    (h1 : (J.toText (.object (t.map fun (k, v) => (k, v.toJson)))).length ≤ size)
    (h2 : size ≤ (featureTableHeader J t p).length) :
    ∃ t', readFeatureTable J (pre ++ featureTableHeader J t p ++ post) pre.length size = .ok t' ∧
      SameTable (SameFeature f) t t' := by
  obtain ⟨hv, hd⟩ := features_json ht
  obtain ⟨v', g1, g2⟩ := header_back hJ hv hd pre post p size h1 h2
  obtain ⟨es, t', rfl, k1, k2, k3, k4⟩ := entries_back (P := FeatureValue.ofJson) g2 (by
    intro key x y hx hxy
    rw [lookup_map_snd] at hx
    obtain ⟨e, he, rfl⟩ := Option.map_eq_some_iff.1 hx
    have hm := ht.2 _ (mem_of_lookup he)
    obtain ⟨e', h, _⟩ := feature_back (e := e) (by rintro o c rfl; exact hm) (hu _ (mem_of_lookup he)) hxy
    exact ⟨e', h⟩)
  refine ⟨t', ?_, k2, ?_, ?_⟩
  · unfold readFeatureTable featureTableHeader at *
    rw [g1]
    exact k1
  · intro k
    rw [← k3, lookup_map_snd]
    simp
  · intro k x y hx hy
    obtain ⟨z, h1, h2⟩ := k4 k x.toJson y (by rw [lookup_map_snd, hx]; rfl) hy
    have hm := ht.2 _ (mem_of_lookup hx)
    obtain ⟨e', h3, h4⟩ := feature_back (e := x) (by rintro o c rfl; exact hm) (hu _ (mem_of_lookup hx)) h1
    rw [h3] at h2
    cases h2
    exact h4

/-- **C75 is violated for single values that are arrays**: they come back as arrays. -/
theorem C75_features_violated {J : JsonText} {f : F64 → F64} (hJ : Faithful J f) (pre post : Bytes) (p : Nat) :
    ∃ t : FeatureTable, GoodFeatures t ∧ ∃ t',
      readFeatureTable J (pre ++ featureTableHeader J t p ++ post) pre.length (featureTableHeader J t p).length = .ok t' ∧
      ¬ SameTable (SameFeature f) t t' ∧ t'.lookup "A" = some (.array []) ∧ t.lookup "A" = some (.single (.array [])) := by
  have ht : GoodFeatures [("A", .single (.array []))] := by
    refine ⟨by simp, ?_⟩
    intro e he
    obtain rfl := List.mem_singleton.1 he
    exact ⟨.array _ fun v hv => (List.not_mem_nil hv).elim, by simp [depth, depthList]⟩
  have hu : GoodFeatures [("A", .array [])] := by
    refine ⟨by simp, ?_⟩
    intro e he
    obtain rfl := List.mem_singleton.1 he
    exact fun v hv => (List.not_mem_nil hv).elim
  obtain ⟨t', h1, h2, h3, h4⟩ := C75_features_partial hJ hu (by
    intro e he
    obtain rfl := List.mem_singleton.1 he
    trivial) pre post p _ (header_padded J _ p).1 (Nat.le_refl _)
  have h5 : t'.lookup "A" = some (.array []) := by
    obtain ⟨y, hy⟩ := Option.isSome_iff_exists.1 ((h3 "A").symm.trans (by simp [List.lookup_cons]))
    have := h4 "A" (.array []) y (by simp [List.lookup_cons]) hy
    cases this with
    | array _ ws h =>
      obtain ⟨ys, h6, h7⟩ := array_back h
      cases h6
      cases h7
      exact hy
  refine ⟨_, ht, t', h1, ?_, h5, by simp [List.lookup_cons]⟩
  rintro ⟨_, _, h6⟩
  have := h6 "A" (.single (.array [])) _ (by simp) h5
  cases this

namespace TableExample

/-- A batch table with an array and a reference. -/
def batch : BatchTable :=
  [("id", .arrayData [.int 1, .string "b", .array [.int 3]]), ("height", .reference 16 "FLOAT" "SCALAR")]

/-- A feature table with all kinds of entries. -/
def features : FeatureTable :=
  [("POINTS_LENGTH", .single (.int 3)), ("RTC_CENTER", .array [.int 1, .int 2, .int 3]), ("POSITION", .reference 0 none),
    ("BATCH_ID", .reference 36 (some "UNSIGNED_BYTE"))]

end TableExample

open TableExample in
/-- The theorems apply to tables with several kinds of entries, and there is JSON text as they want it. -/
example : GoodBatch batch ∧ GoodFeatures features ∧ (∀ e ∈ features, Unambiguous e.2) ∧ Faithful Codec.codec id := by
  have hi : ∀ (z : Int), -(2 : Int) ^ 63 ≤ z → z < 2 ^ 64 → Valid (.int z) := fun z h1 h2 => .int z h1 h2
  refine ⟨⟨by decide, ?_⟩, ⟨by decide, ?_⟩, ?_, Codec.codec_faithful⟩
  · intro e he
    simp only [batch, List.mem_cons, List.not_mem_nil, or_false] at he
    rcases he with rfl | rfl
    · intro v hv
      simp only [List.mem_cons, List.not_mem_nil, or_false] at hv
      rcases hv with rfl | rfl | rfl
      · exact ⟨hi _ (by decide) (by decide), by simp [depth]⟩
      · exact ⟨.string _, by simp [depth]⟩
      · refine ⟨.array _ ?_, by simp [depth, depthList]⟩
        intro v hv
        obtain rfl := List.mem_singleton.1 hv
        exact hi _ (by decide) (by decide)
    · decide
  · intro e he
    simp only [features, List.mem_cons, List.not_mem_nil, or_false] at he
    rcases he with rfl | rfl | rfl | rfl
    · exact ⟨hi _ (by decide) (by decide), by simp [depth]⟩
    · intro v hv
      simp only [List.mem_cons, List.not_mem_nil, or_false] at hv
      rcases hv with rfl | rfl | rfl <;> exact ⟨hi _ (by decide) (by decide), by simp [depth]⟩
    · decide
    · decide
  · intro e he
    simp only [features, List.mem_cons, List.not_mem_nil, or_false] at he
    rcases he with rfl | rfl | rfl | rfl <;> trivial

/-! ## C76: tilesets -/

/-- **C76.** A tileset with at most 61 levels below its root, and finite numbers, is read back as it was written, up to what
    the JSON text does with floats. -/
theorem C76_partial {J : JsonText} {f : F64 → F64} (hJ : Serde J f) {t : RootTileset} (ht : GoodRoot t)
    (hl : levels t.root ≤ 61) :
    ∃ t', RootTileset.read J (t.write J) = .ok t' ∧ t'.asset = t.asset ∧ SameProperties f t.properties t'.properties ∧
      t'.geometricError = f t.geometricError ∧ t'.root = mapTileset f t.root := by
  obtain ⟨hv, _, hd⟩ := root_json fun ps h => (ht.properties ps h).1
  obtain ⟨y, h1, h2⟩ := hJ.reads t.toJson 0 hv (by omega)
  obtain ⟨t', h3⟩ := root_back ht h2
  refine ⟨t', ?_, h3.2⟩
  unfold RootTileset.read RootTileset.write
  rw [List.replicate_zero, List.append_nil] at h1
  rw [h1]
  exact h3.1

/-- **C76 is violated for deep tilesets**: with more levels they can be written, and not read. -/
theorem C76_deep_violated {J : JsonText} {f : F64 → F64} (hJ : Serde J f) {t : RootTileset} (ht : GoodRoot t)
    (hl : 62 ≤ levels t.root) : RootTileset.read J (t.write J) = .error .err := by
  obtain ⟨hv, hd, _⟩ := root_json fun ps h => (ht.properties ps h).1
  have h1 := hJ.refuses t.toJson 0 hv (by omega)
  rw [List.replicate_zero, List.append_nil] at h1
  unfold RootTileset.read RootTileset.write
  rw [h1]
  rfl

/-- **C76 is violated for numbers that are not finite**: whatever the JSON text does, a tileset whose geometric error is not a
    number or infinite cannot be read. -/
theorem C76_nonfinite_violated {J : JsonText} {f : F64 → F64} (hJ : Serde J f) {t : RootTileset}
    (h : ∀ ps, t.properties = some ps → (ps.map Prod.fst).Nodup) (he : t.geometricError.isFinite = false) :
    ∃ e, RootTileset.read J (t.write J) = .error e := by
  obtain ⟨hv, _⟩ := root_json h
  unfold RootTileset.read RootTileset.write
  rcases Nat.lt_or_ge 127 (depth t.toJson) with hd | hd
  · have h1 := hJ.refuses t.toJson 0 hv hd
    rw [List.replicate_zero, List.append_nil] at h1
    rw [h1]
    exact ⟨_, rfl⟩
  · obtain ⟨y, h1, h2⟩ := hJ.reads t.toJson 0 hv hd
    rw [List.replicate_zero, List.append_nil] at h1
    rw [h1]
    show ∃ e, RootTileset.ofJson y = .error e
    rw [root_entries] at h2
    obtain ⟨es, rfl, _, _, hsome⟩ := object_back h2
    obtain ⟨z, hz, hb⟩ := hsome "geometricError" (Json.ofF64 t.geometricError) (by simp [List.lookup_cons])
    have hnull : Json.ofF64 t.geometricError = .null := by
      unfold Json.ofF64
      rw [if_neg (by simp [he])]
    rw [hnull] at hb
    cases hb
    have hreq : required es "geometricError" f64OfJson = .error .err := by
      unfold required
      rw [hz]
      rfl
    unfold RootTileset.ofJson
    simp only [objectEntries, bind, Except.bind, pure, Except.pure]
    cases required es "asset" TilesetAssetInfo.ofJson with
    | error e => exact ⟨e, rfl⟩
    | ok a =>
      dsimp only
      cases optional es "properties" propertiesOfJson with
      | error e => exact ⟨e, rfl⟩
      | ok a =>
        dsimp only
        rw [hreq]
        exact ⟨_, rfl⟩

namespace TilesetExample

/-- A number. -/
def n (z : Int) : F64 := Flt.ofInt .f64 z

/-- The fields of a tile. -/
def fields : TilesetFields :=
  ⟨n 12, some .add, .box ⟨⟨n 1, n 2, n 3⟩, ⟨n 4, n 0, n 0⟩, ⟨n 0, n 5, n 0⟩, ⟨n 0, n 0, n 6⟩⟩, none,
    some ⟨some (.sphere ⟨⟨n 1, n 2, n 3⟩, n 7⟩), "tile.pnts"⟩,
    some [n 1, n 0, n 0, n 0, n 0, n 1, n 0, n 0, n 0, n 0, n 1, n 0, n 8, n 9, n 10, n 1]⟩

/-- `k` levels below a tile. -/
def chain : Nat → Tileset
  | 0 => .mk fields []
  | k + 1 => .mk fields [chain k]

theorem fields_good : GoodFields fields := by
  refine ⟨?_, by intro m hm; cases hm; rfl⟩
  decide +kernel

theorem chain_good : ∀ k, GoodTileset (chain k)
  | 0 => .mk _ _ fields_good fun _ h => (List.not_mem_nil h).elim
  | k + 1 => .mk _ _ fields_good fun c h => by
    obtain rfl := List.mem_singleton.1 h
    exact chain_good k

theorem chain_levels : ∀ k, levels (chain k) = k
  | 0 => rfl
  | k + 1 => by
    rw [chain, levels, levelsList, levelsList, chain_levels k]
    simp

/-- A tileset with `k` levels below its root. -/
def root (k : Nat) : RootTileset := ⟨⟨"1.0", some "2"⟩, some [("height", ⟨n 1, n 2⟩)], n 500, chain k⟩

theorem root_good (k : Nat) : GoodRoot (root k) := by
  refine ⟨?_, ?_, chain_good k⟩
  · show (n 500).isFinite = true
    decide +kernel
  · intro ps hps
    cases hps
    refine ⟨by simp, ?_⟩
    intro p hp
    obtain rfl := List.mem_singleton.1 hp
    constructor <;> decide +kernel

end TilesetExample

open TilesetExample in
/-- The theorems apply to tilesets with several levels, and there is JSON text as they want it. -/
example : GoodRoot (root 5) ∧ levels (root 5).root = 5 ∧ GoodRoot (root 70) ∧ 62 ≤ levels (root 70).root ∧
    Serde Codec.codec id :=
  ⟨root_good 5, chain_levels 5, root_good 70, by rw [show levels (root 70).root = 70 from chain_levels 70]; omega,
    ⟨Codec.codec_faithful, fun _ _ hj hd => Codec.codec_refuses hj hd⟩⟩

/-! ## C78: the builder -/

/-- The loop over the calls. -/
theorem builder_loop : ∀ (calls : List BuilderCall) (b : TilesetFields × List Tileset),
    (∀ e, .geometricError e ∈ calls → Flt.lt e (Flt.zero .f64) = false) →
    ∃ b', forLoop calls b builderStep = .ok b' ∧
      b'.1.geometricError = (lastOf (fun c => match c with | .geometricError e => some e | _ => none) calls).getD b.1.geometricError ∧
      b'.1.refinement = (lastOf (fun c => match c with | .refinement r => some r | _ => none) calls).or b.1.refinement ∧
      b'.1.boundingVolume = (lastOf (fun c => match c with | .boundingVolume v => some v | _ => none) calls).getD b.1.boundingVolume ∧
      b'.1.viewerRequestVolume =
        (lastOf (fun c => match c with | .viewerRequestVolume v => some v | _ => none) calls).or b.1.viewerRequestVolume ∧
      b'.1.content =
        (lastOf (fun c => match c with | .content u v => some ⟨v, u⟩ | _ => none) calls).or b.1.content ∧
      b'.1.transform = (lastOf (fun c => match c with | .transform m => some m | _ => none) calls).or b.1.transform ∧
      b'.2 = b.2 ++ calls.flatMap fun c => match c with | .addChild t => [t] | .addChildren ts => ts | _ => []
  | [], b, _ => ⟨b, rfl, by simp [lastOf]⟩
  | c :: calls, b, h => by
    have hrest : ∀ e, .geometricError e ∈ calls → Flt.lt e (Flt.zero .f64) = false :=
      fun e he => h e (List.mem_cons_of_mem _ he)
    have key : ∀ b1, builderStep b c = .ok b1 → forLoop (c :: calls) b builderStep = forLoop calls b1 builderStep := by
      intro b1 h1
      rw [forLoop_cons, h1]
      rfl
    have last : ∀ {α : Type} (g : BuilderCall → Option α) (x : α), g c = some x →
        lastOf g (c :: calls) = (lastOf g calls).or (some x) := by
      intro α g x hx
      unfold lastOf
      rw [List.filterMap_cons, hx, List.getLast?_cons]
      cases (List.filterMap g calls).getLast? <;> rfl
    have skip : ∀ {α : Type} (g : BuilderCall → Option α), g c = none → lastOf g (c :: calls) = lastOf g calls := by
      intro α g hx
      unfold lastOf
      rw [List.filterMap_cons, hx]
    have hstep : ∃ b1, builderStep b c = .ok b1 := by
      cases c with
      | geometricError e =>
        unfold builderStep
        dsimp only
        rw [if_neg (by rw [h e List.mem_cons_self]; exact Bool.false_ne_true)]
        exact ⟨_, rfl⟩
      | _ => exact ⟨_, rfl⟩
    obtain ⟨b1, hb1⟩ := hstep
    obtain ⟨b', g0, g1, g2, g3, g4, g5, g6, g7⟩ := builder_loop calls b1 hrest
    refine ⟨b', (key b1 hb1).trans g0, ?_⟩
    rw [g1, g2, g3, g4, g5, g6, g7, List.flatMap_cons]
    cases c with
    | geometricError e =>
      unfold builderStep at hb1
      dsimp only at hb1
      rw [if_neg (by rw [h e List.mem_cons_self]; exact Bool.false_ne_true)] at hb1
      cases hb1
      rw [last _ e rfl, skip _ rfl, skip _ rfl, skip _ rfl, skip _ rfl, skip _ rfl]
      refine ⟨?_, rfl, rfl, rfl, rfl, rfl, by simp⟩
      cases lastOf _ calls <;> rfl
    | refinement r =>
      cases hb1
      rw [last (fun c => match c with | .refinement r => some r | _ => none) r rfl, skip _ rfl, skip _ rfl, skip _ rfl,
        skip _ rfl, skip _ rfl]
      refine ⟨rfl, ?_, rfl, rfl, rfl, rfl, by simp⟩
      cases lastOf _ calls <;> rfl
    | boundingVolume v =>
      cases hb1
      rw [last (fun c => match c with | .boundingVolume r => some r | _ => none) v rfl, skip _ rfl, skip _ rfl, skip _ rfl,
        skip _ rfl, skip _ rfl]
      refine ⟨rfl, rfl, ?_, rfl, rfl, rfl, by simp⟩
      cases lastOf _ calls <;> rfl
    | viewerRequestVolume v =>
      cases hb1
      rw [last (fun c => match c with | .viewerRequestVolume r => some r | _ => none) v rfl, skip _ rfl, skip _ rfl, skip _ rfl,
        skip _ rfl, skip _ rfl]
      refine ⟨rfl, rfl, rfl, ?_, rfl, rfl, by simp⟩
      cases lastOf _ calls <;> rfl
    | content u v =>
      cases hb1
      rw [last (fun c => match c with | .content u v => some ⟨v, u⟩ | _ => none) (⟨v, u⟩ : TilesetContent) rfl, skip _ rfl,
        skip _ rfl, skip _ rfl, skip _ rfl, skip _ rfl]
      refine ⟨rfl, rfl, rfl, rfl, ?_, rfl, by simp⟩
      cases lastOf _ calls <;> rfl
    | transform m =>
      cases hb1
      rw [last (fun c => match c with | .transform r => some r | _ => none) m rfl, skip _ rfl, skip _ rfl, skip _ rfl,
        skip _ rfl, skip _ rfl]
      refine ⟨rfl, rfl, rfl, rfl, rfl, ?_, by simp⟩
      cases lastOf _ calls <;> rfl
    | addChild t =>
      cases hb1
      rw [skip _ rfl, skip _ rfl, skip _ rfl, skip _ rfl, skip _ rfl, skip _ rfl]
      exact ⟨rfl, rfl, rfl, rfl, rfl, rfl, by simp⟩
    | addChildren ts =>
      cases hb1
      rw [skip _ rfl, skip _ rfl, skip _ rfl, skip _ rfl, skip _ rfl, skip _ rfl]
      exact ⟨rfl, rfl, rfl, rfl, rfl, rfl, by simp⟩

/-- **C78.** After any calls of the methods of the builder, in any order, each field has the value that was given last, or its
    default if there was none, and the children are those that were added, in this order. -/
theorem C78 (calls : List BuilderCall) (h : ∀ e, .geometricError e ∈ calls → Flt.lt e (Flt.zero .f64) = false) :
    ∃ fields, buildTileset calls = .ok (.mk fields
        (calls.flatMap fun c => match c with | .addChild t => [t] | .addChildren ts => ts | _ => [])) ∧
      fields.geometricError = (lastOf (fun c => match c with | .geometricError e => some e | _ => none) calls).getD (Flt.zero .f64) ∧
      fields.refinement = lastOf (fun c => match c with | .refinement r => some r | _ => none) calls ∧
      fields.boundingVolume = (lastOf (fun c => match c with | .boundingVolume v => some v | _ => none) calls).getD
        (.region ⟨Flt.zero .f64, Flt.zero .f64, Flt.zero .f64, Flt.zero .f64, Flt.zero .f64, Flt.zero .f64⟩) ∧
      fields.viewerRequestVolume = lastOf (fun c => match c with | .viewerRequestVolume v => some v | _ => none) calls ∧
      fields.content = lastOf (fun c => match c with | .content u v => some ⟨v, u⟩ | _ => none) calls ∧
      fields.transform = lastOf (fun c => match c with | .transform m => some m | _ => none) calls := by
  obtain ⟨b', g0, g1, g2, g3, g4, g5, g6, g7⟩ := builder_loop calls builderStart h
  refine ⟨b'.1, ?_, g1, ?_, g3, ?_, ?_, ?_⟩
  · unfold buildTileset
    rw [g0]
    show Except.ok (Tileset.mk b'.1 b'.2) = _
    rw [g7]
    rfl
  · rw [g2]; exact Option.or_none
  · rw [g4]; exact Option.or_none
  · rw [g5]; exact Option.or_none
  · rw [g6]; exact Option.or_none

/-- **C78: the documented panic.** With a negative geometric error anywhere among the calls, the builder panics. -/
theorem C78_panics : ∀ (calls : List BuilderCall) (e : F64), .geometricError e ∈ calls → Flt.lt e (Flt.zero .f64) = true →
    buildTileset calls = panicked := by
  have key : ∀ (calls : List BuilderCall) (b : TilesetFields × List Tileset) (e : F64), .geometricError e ∈ calls →
      Flt.lt e (Flt.zero .f64) = true → forLoop calls b builderStep = .error .panic := by
    intro calls
    induction calls with
    | nil => intro b e he; exact (List.not_mem_nil he).elim
    | cons c calls ih =>
      intro b e he h
      rw [forLoop_cons]
      cases hb : builderStep b c with
      | error x =>
        cases c with
        | geometricError e' =>
          unfold builderStep at hb
          dsimp only at hb
          split at hb
          · cases hb; rfl
          · cases hb
        | _ => cases hb
      | ok b1 =>
        rcases List.mem_cons.1 he with rfl | he
        · unfold builderStep at hb
          dsimp only at hb
          rw [if_pos h] at hb
          cases hb
        · exact ih b1 e he h
  intro calls e he h
  unfold buildTileset
  rw [key calls builderStart e he h]
  rfl

open TilesetExample in
/-- The theorems apply to sequences of calls, and the second value of a field wins. A geometric error that is not a number is
    accepted. -/
example : (∀ e, .geometricError e ∈ [BuilderCall.geometricError (n 3), .addChild (chain 1), .refinement .add,
      .geometricError (Flt.nan .f64), .addChildren [chain 0, chain 2]] → Flt.lt e (Flt.zero .f64) = false) ∧
    Flt.lt (n (-1)) (Flt.zero .f64) = true := by
  refine ⟨?_, by decide +kernel⟩
  intro e he
  simp only [List.mem_cons, List.not_mem_nil, or_false, reduceCtorEq, false_or, BuilderCall.geometricError.injEq] at he
  rcases he with rfl | rfl <;> decide +kernel

end Pasture.Props
