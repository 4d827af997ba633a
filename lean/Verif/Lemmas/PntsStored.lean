import Verif.Lemmas.PntsCache
import Verif.Lemmas.PntsFile
import Verif.Lemmas.PntsRead

/-!
# Lemmas on the writer of 3D Tiles point clouds: from the cache to the file
-/

namespace Pasture.Tiles3d

open Spec Spec.Pnts Props Las PntsWriter BorrowedBuffer BorrowedMutBuffer OwningBuffer

theorem cache_defs {l cl : PointLayout} {fns : Converters} (h : Compatible l cl fns) (d : AttrDef) :
    d ∈ cl.attributes.map Member.definition ↔ d ∈ (storedAttributes l).map Prod.snd := by
  rw [h.defs]
  constructor
  · intro hd
    obtain ⟨m, hm, hmd⟩ := List.mem_filterMap.1 hd
    unfold cacheDef at hmd
    cases hl : supportedAttributes.lookup m.name with
    | none => rw [hl] at hmd; cases hmd
    | some ty =>
      rw [hl] at hmd
      cases hmd
      obtain ⟨s, hs, he⟩ := (supported_iff _ _).1 hl
      exact List.mem_map.2 ⟨s, List.mem_filter.2 ⟨hs, by rw [he]; exact decide_eq_true ⟨m, hm, rfl⟩⟩, he⟩
  · intro hd
    obtain ⟨s, hs, rfl⟩ := List.mem_map.1 hd
    obtain ⟨h1, h2⟩ := List.mem_filter.1 hs
    obtain ⟨m, hm, hmn⟩ := of_decide_eq_true h2
    refine List.mem_filterMap.2 ⟨m, hm, ?_⟩
    unfold cacheDef
    rw [hmn, (supported_iff s.2.name s.2.datatype).2 ⟨s, h1, rfl⟩]
    rfl

theorem defs_nodup {l : PointLayout} (hl : Solid l) : (l.attributes.map Member.definition).Nodup := by
  have hn := hl.names
  rw [show l.attributes.map Member.name = (l.attributes.map Member.definition).map AttrDef.name by
    rw [List.map_map]; rfl] at hn
  exact List.Nodup.of_map _ hn

theorem stored_nodup (l : PointLayout) : ((storedAttributes l).map Prod.snd).Nodup := by
  have : (semantics.map Prod.snd).Nodup := by decide
  exact this.sublist (List.filter_sublist.map _)

theorem cache_perm {l cl : PointLayout} {fns : Converters} (h : Compatible l cl fns) :
    (cl.attributes.map Member.definition).Perm ((storedAttributes l).map Prod.snd) :=
  (List.perm_ext_iff_of_nodup (defs_nodup h.target) (stored_nodup l)).2 (cache_defs h)

theorem semOf_stored {l : PointLayout} {s : String × AttrDef} (hs : s ∈ storedAttributes l) :
    semanticsName s.2 = some s.1 := by
  have hs := (List.mem_filter.1 hs).1
  simp only [semantics, List.mem_cons, List.not_mem_nil, or_false] at hs
  rcases hs with rfl | rfl | rfl | rfl <;> decide

theorem stored_fst (l : PointLayout) : ((storedAttributes l).map Prod.fst).Nodup := by
  have : (semantics.map Prod.fst).Nodup := by decide
  exact this.sublist (List.filter_sublist.map _)

theorem cache_named {l cl : PointLayout} {fns : Converters} (h : Compatible l cl fns) : Named cl.attributes := by
  constructor
  · intro m hm
    obtain ⟨s, hs, he⟩ := List.mem_map.1 ((cache_defs h m.definition).1 (List.mem_map_of_mem hm))
    rw [← he, semOf_stored hs]
    rfl
  · have h1 : (cl.attributes.map fun m => semOf m.definition).Perm ((storedAttributes l).map Prod.fst) := by
      have := (cache_perm h).map semOf
      rw [List.map_map, List.map_map] at this
      refine this.trans (List.Perm.of_eq (List.map_congr_left ?_))
      intro s hs
      show semOf s.2 = s.1
      unfold semOf
      rw [semOf_stored hs]
      rfl
    exact h1.nodup_iff.2 (stored_fst l)

theorem get_zero {ds : List AttrDef} {d : AttrDef} (hd : d ∈ ds) (hn : ds.Nodup) :
    Point.get (ds.map fun d => (d, List.replicate d.size 0)) d = some (List.replicate d.size 0) := by
  unfold Point.get
  refine lookup_of_mem ?_ (List.mem_map.2 ⟨d, hd, rfl⟩)
  rw [List.map_map]
  exact (List.map_id ds).symm ▸ hn

theorem get_same {l cl : PointLayout} {fns : Converters} (h : Compatible l cl fns) {d : AttrDef}
    (hd : d ∈ cl.attributes.map Member.definition) (p : Point) :
    (cachedPoint l cl p).get d = (storedPoint l p).get d := by
  unfold cachedPoint storedPoint
  rw [apply_get, apply_get]
  have e1 : (zeroPoint cl).get d = some (List.replicate d.size 0) := by
    have := get_zero hd (defs_nodup h.target)
    rw [List.map_map] at this
    exact this
  have e2 : Point.get ((storedAttributes l).map fun s => (s.2, List.replicate s.2.size 0)) d =
      some (List.replicate d.size 0) := by
    have := get_zero ((cache_defs h d).1 hd) (stored_nodup l)
    rw [List.map_map] at this
    exact this
  rw [e1, e2]

theorem column_same {l cl : PointLayout} {fns : Converters} (h : Compatible l cl fns) {d : AttrDef}
    (hd : d ∈ cl.attributes.map Member.definition) (ps : List Point) :
    columnOf d (ps.map (cachedPoint l cl)) = columnOf d (ps.map (storedPoint l)) := by
  unfold columnOf
  rw [List.filterMap_map, List.filterMap_map]
  congr 1
  apply List.filterMap_congr
  intro p _
  exact get_same h hd p

theorem stored_have {l : PointLayout} {ps : List Point}
    (ht : ∀ p ∈ ps, ∀ d v, p.get d = some v → v.length = d.size) :
    HaveAttributes ((storedAttributes l).map Prod.snd) (ps.map (storedPoint l)) := by
  constructor
  · intro q hq
    obtain ⟨p, _, rfl⟩ := List.mem_map.1 hq
    unfold storedPoint Plan.apply
    rw [List.map_map, List.map_map]
    rfl
  · intro q hq kv hkv
    obtain ⟨p, hp', rfl⟩ := List.mem_map.1 hq
    unfold storedPoint Plan.apply at hkv
    rw [List.map_map] at hkv
    obtain ⟨s, hs, rfl⟩ := List.mem_map.1 hkv
    simp only [Function.comp_apply]
    cases hp : defaultPlan l s.2 with
    | none => simp
    | some r =>
      dsimp only
      cases hg : p.get r.source with
      | none => simp
      | some v =>
        dsimp only
        unfold defaultPlan at hp
        cases hf : l.attributes.find? (fun m => m.name = s.2.name) with
        | none => rw [hf] at hp; cases hp
        | some m =>
          rw [hf] at hp
          dsimp only at hp
          cases hc : conversion m.datatype s.2.datatype with
          | none => rw [hc] at hp; cases hp
          | some g =>
            rw [hc] at hp
            cases hp
            exact conversion_size hc (ht p hp' _ _ hg)

/-- The columns of the file are the columns of the stored points. -/
theorem parts_perm {l cl : PointLayout} {fns : Converters} (h : Compatible l cl fns) (ps : List Point) :
    ((partsFrom (fun m => columnOf m.definition (ps.map (cachedPoint l cl))) 0 cl.attributes).map
      fun p => (p.semantic, p.data)).Perm
      ((storedAttributes l).map fun s => (s.1, columnOf s.2 (ps.map (storedPoint l)))) := by
  rw [parts_columns]
  have := (cache_perm h).map fun d => (semOf d, columnOf d (ps.map (cachedPoint l cl)))
  rw [List.map_map, List.map_map] at this
  refine this.trans (List.Perm.of_eq (List.map_congr_left ?_))
  intro s hs
  show (semOf s.2, columnOf s.2 _) = _
  rw [column_same h ((cache_defs h s.2).2 (List.mem_map_of_mem hs))]
  unfold semOf
  rw [semOf_stored hs]
  rfl

/-- The columns of the cache. -/
theorem cache_columns {l cl : PointLayout} {fns : Converters} (h : Compatible l cl fns) {w : PntsWriter}
    {ps : List Point} (hw : Caching l cl fns w ps) :
    len w.cachedPoints = ps.length ∧ ∀ m ∈ w.defaultLayout.attributes,
      ColumnarBuffer.getAttributeRangeRef w.cachedPoints m.definition ⟨0, len w.cachedPoints⟩ =
        .ok (columnOf m.definition (ps.map (cachedPoint l cl))) ∧
      (columnOf m.definition (ps.map (cachedPoint l cl))).length = m.size * len w.cachedPoints := by
  obtain ⟨rs, h1, h2, h3⟩ := hw.cache
  have hsh := HashMapBuffer.shows_columns h.target h1
  have hlen : len w.cachedPoints = ps.length := by
    rw [h2, hsh.points.len_eq, h3, List.length_map]
  refine ⟨hlen, ?_⟩
  intro m hm
  rw [hw.cacheLayout] at hm
  have hv : HasValues m.definition (ps.map (cachedPoint l cl)) := by
    intro p hp
    rw [← h3] at hp
    obtain ⟨k, hk, rfl⟩ := List.mem_iff_getElem.1 hp
    obtain ⟨v, h1, h2⟩ := value_some h.target hsh.points hm hk
    exact ⟨v, h1, h2⟩
  have hmap : (ps.map (cachedPoint l cl)).mapM (fun p => p.get m.definition) =
      some (valuesOf m.definition (ps.map (cachedPoint l cl))) := by
    generalize ps.map (cachedPoint l cl) = qs at hv
    induction qs with
    | nil => rfl
    | cons q qs ih =>
      obtain ⟨v, hq, _⟩ := hv q (by simp)
      rw [List.mapM_cons, hq, ih (fun p hp => hv p (by simp [hp]))]
      simp [valuesOf, hq]
  rw [hlen]
  refine ⟨?_, by rw [columnOf_length hv, List.length_map]; exact Nat.mul_comm _ _⟩
  rw [h2, hsh.getAttributeRangeRef_eq m.definition 0 ps.length (by
    rw [h3, List.length_map]
    by_cases h0 : ps.length = 0
    · exact .inr ⟨h0.symm, Nat.le_refl _, List.mem_map_of_mem hm⟩
    · exact .inl (by omega)), h3]
  unfold values? range?
  rw [List.length_map, if_pos (Nat.le_refl _)]
  simp only [List.drop_zero, Nat.sub_zero]
  rw [List.take_of_length_le (by simp)]
  simp only [bind, Option.bind, hmap]
  rw [(columnOf_values hv).1]
  rfl

/-- A flush of the cached points. -/
theorem flush_cached (J : JsonText) {l cl : PointLayout} {fns : Converters} (h : Compatible l cl fns) {w : PntsWriter}
    {ps : List Point} (hw : Caching l cl fns w ps) (hf : w.requiresFlush = true) (he : w.writer = ⟨[], 0⟩) :
    ∃ parts entries, PackedFrom 0 parts ∧ entries.Perm (tableEntries ps.length w.rtcCenter parts) ∧
      (parts.map fun p => (p.semantic, p.data)).Perm
        ((storedAttributes l).map fun s => (s.1, columnOf s.2 (ps.map (storedPoint l)))) ∧
      (fileSize J entries parts < 2 ^ 32 → ∃ file,
        w.flush J = .ok { w with writer := ⟨file, file.length⟩, requiresFlush := false } ∧
        IsPnts J file ps.length w.rtcCenter parts ∧ file.length = fileSize J entries parts) ∧
      (2 ^ 32 ≤ fileSize J entries parts → w.flush J = .error .panic) := by
  obtain ⟨hlen, hcol⟩ := cache_columns h hw
  obtain ⟨entries, a1, a2, a3⟩ := flush_file J hf he (by rw [hw.cacheLayout]; exact cache_named h) hcol
  rw [hlen] at a1 a2
  refine ⟨_, entries, parts_packed _ _ 0, a1, ?_, a2, a3⟩
  rw [hw.cacheLayout]
  exact parts_perm h ps

/-- A new writer. -/
theorem new_writer {l : PointLayout} (hl : Solid l) (hs : Storable l) (hne : storedAttributes l ≠ []) (s : Stream) :
    ∃ cl fns w, fromWriteAndLayout s l = .ok w ∧ Compatible l cl fns ∧ Caching l cl fns w [] ∧
      w.requiresFlush = true ∧ w.writer = s ∧ w.rtcCenter = none := by
  obtain ⟨cl, fns, h1, h2, h3, h4, h5⟩ := makeCompatible_ok hl hs
  have hcl : cl.attributes ≠ [] := by
    intro he
    obtain ⟨x, hx⟩ := List.exists_mem_of_ne_nil _ hne
    obtain ⟨a, b⟩ := List.mem_filter.1 hx
    obtain ⟨m, hm, hmn⟩ := of_decide_eq_true b
    have : x.2 ∈ cl.attributes.map Member.definition := by
      rw [h2]
      refine List.mem_filterMap.2 ⟨m, hm, ?_⟩
      unfold cacheDef
      rw [hmn, (supported_iff x.2.name x.2.datatype).2 ⟨x, a, rfl⟩]
      rfl
    rw [he] at this
    cases this
  refine ⟨cl, fns, ⟨s, l, cl, MakeBufferFromLayout.newFromLayout cl, fns, none, true⟩, ?_, ⟨hl, h3 hcl, h2, h4, h5⟩, ⟨rfl, rfl, rfl, [], AllLen.nil, rfl, rfl⟩, rfl, rfl, rfl⟩
  unfold fromWriteAndLayout
  rw [h1]
  rfl

end Pasture.Tiles3d
