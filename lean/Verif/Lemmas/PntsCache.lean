import Verif.Lemmas.PntsWriter

/-!
# Lemmas on the writer of 3D Tiles point clouds: what is in the cache
-/

namespace Pasture.Tiles3d

open Spec Spec.Pnts BorrowedBuffer BorrowedMutBuffer OwningBuffer Props Las PntsWriter

/-- A point as it is cached. -/
def cachedPoint (l cl : PointLayout) (p : Point) : Point := (defaultPlan l).apply p (zeroPoint cl)

/-- What the cache layout and the converters have to do with the layout of the points. -/
structure Compatible (l cl : PointLayout) (fns : Converters) : Prop where
  source : Solid l
  target : Solid cl
  defs : cl.attributes.map Member.definition = l.attributes.filterMap cacheDef
  entries : Entries l.attributes fns
  names : fns.map Prod.fst = (cl.attributes.map Member.name).reverse

theorem Compatible.plan {l cl : PointLayout} {fns : Converters} (h : Compatible l cl fns) {e : String × Option Converter}
    (he : e ∈ fns) : ∃ src dst f, l.getAttributeByName e.1 = some src ∧ cl.getAttributeByName e.1 = some dst ∧
      src ∈ l.attributes ∧ dst ∈ cl.attributes ∧
      defaultPlan l dst.definition = some ⟨src.definition, f⟩ ∧ Suits e.2 src.datatype dst.datatype f := by
  obtain ⟨m, hm, ty, f, h1, h2, h3, h4⟩ := h.entries e he
  have hd : (⟨m.name, ty⟩ : AttrDef) ∈ cl.attributes.map Member.definition := by
    rw [h.defs]
    exact List.mem_filterMap.2 ⟨m, hm, by unfold cacheDef; rw [h2]; rfl⟩
  obtain ⟨dst, hdst, hdd⟩ := List.mem_map.1 hd
  have hdt : dst.datatype = ty := by unfold Member.datatype; rw [hdd]
  have hdn : dst.name = m.name := by unfold Member.name; rw [hdd]; rfl
  have hsrc : l.getAttributeByName e.1 = some m := (getByName_iff l h.source.names _ _).2 ⟨hm, h1⟩
  refine ⟨m, dst, f, hsrc, (getByName_iff cl h.target.names _ _).2 ⟨hdst, by rw [hdn, h1]⟩, hm, hdst, ?_, hdt ▸ h4⟩
  unfold defaultPlan
  rw [hdd]
  rw [show l.attributes.find? (fun m' => m'.name = (⟨m.name, ty⟩ : AttrDef).name) = some m from
      (getByName_iff l h.source.names m.name m).2 ⟨hm, rfl⟩]
  show (conversion m.datatype ty).map _ = _
  rw [h3]
  rfl

theorem Compatible.planned {l cl : PointLayout} {fns : Converters} (h : Compatible l cl fns) {dst : Member}
    (hd : dst ∈ cl.attributes) : ∃ e ∈ fns, e.1 = dst.name := by
  have : dst.name ∈ fns.map Prod.fst := by
    rw [h.names, List.mem_reverse]
    exact List.mem_map_of_mem hd
  obtain ⟨e, he, hn⟩ := List.mem_map.1 this
  exact ⟨e, he, hn⟩

/-- Every value of the points of a buffer. -/
theorem value_some {β : Type} [BorrowedBuffer β] {b : β} {l : PointLayout} (hl : Solid l) {ps : List Point}
    (hb : ShowsPoints b l ps) {m : Member} (hm : m ∈ l.attributes) {k : Nat} (hk : k < ps.length) :
    ∃ v, (ps[k]).get m.definition = some v ∧ v.length = m.size := by
  have ht := points_typed hl hb (List.getElem_mem hk)
  obtain ⟨v, hv⟩ := (ht.1 m.definition).1 (List.mem_map_of_mem hm)
  exact ⟨v, hv, ht.2 _ _ hv⟩

theorem writeValue_eq {β : Type} [BorrowedBuffer β] {points : β} {l : PointLayout} (hl : Solid l) {ps : List Point}
    (hb : ShowsPoints points l ps) {src dst : Member} {f : Bytes → Bytes} {c : Option Converter}
    (hsrc : src ∈ l.attributes) (hplan : defaultPlan l dst.definition = some ⟨src.definition, f⟩)
    (hsuit : Suits c src.datatype dst.datatype f) {base k : Nat} (hk : k < ps.length) (cache : HashMapBuffer) :
    writeValue points src dst c base cache k =
        setAttribute cache dst.definition (base + k) (planValue (defaultPlan l) ps 0 dst.definition k) ∧
      (planValue (defaultPlan l) ps 0 dst.definition k).length = dst.size := by
  obtain ⟨v, hv, hvl⟩ := value_some hl hb hsrc hk
  have hW : planValue (defaultPlan l) ps 0 dst.definition k = f v := by
    unfold planValue
    rw [Nat.zero_add]
    simp only [hplan, Option.bind_some, List.getElem?_eq_getElem hk, hv, Option.map_some, Option.getD_some]
  have hget : getAttribute points src.definition k (zeros src.size) = .ok v := by
    rw [hb.getAttribute_eq _ _ _ (by simp [zeros]; rfl)]
    unfold value?
    simp only [List.getElem?_eq_getElem hk, bind, Option.bind_some, hv]
    rfl
  rw [hW]
  unfold writeValue
  rw [hget]
  rcases hsuit with ⟨rfl, ht, rfl⟩ | ⟨conv, rfl, hc⟩
  · refine ⟨rfl, ?_⟩
    show v.length = dst.datatype.size
    rw [hvl, ← ht]
    rfl
  · refine ⟨?_, hc.size v⟩
    simp only [bind, Except.bind, hc.run v (zeros dst.size) hvl (by simp [zeros]; rfl)]

/-- The points written so far are in the cache. -/
structure Caching (l cl : PointLayout) (fns : Converters) (w : PntsWriter) (ps : List Point) : Prop where
  expected : w.expectedLayout = l
  cacheLayout : w.defaultLayout = cl
  converters : w.attributeConverters = fns
  cache : ∃ rs, AllLen cl.size rs ∧ w.cachedPoints = HashMapBuffer.ofRecords cl rs ∧
    rs.map (pointOf cl) = ps.map (cachedPoint l cl)

theorem cachedPoint_same {l : PointLayout} (hl : Solid l) {r : Bytes} (hr : r.length = l.size) :
    cachedPoint l l (pointOf l r) = pointOf l r := by
  unfold cachedPoint Plan.apply zeroPoint
  rw [List.map_map]
  conv => rhs; unfold pointOf
  apply List.map_congr_left
  intro m hm
  have hp : defaultPlan l m.definition = some ⟨m.definition, id⟩ := by
    unfold defaultPlan
    rw [show l.attributes.find? (fun m' => m'.name = m.definition.name) = some m from
      (getByName_iff l hl.names m.name m).2 ⟨hm, rfl⟩]
    show (conversion m.datatype m.datatype).map _ = _
    unfold conversion
    rw [if_pos rfl]
    rfl
  simp only [Function.comp_apply, hp, pointOf_get, find_def_mem hl hm, Option.map_some]
  rfl

theorem convert_new {l cl : PointLayout} {ps : List Point} {old : List Point} :
    (defaultPlan l).convert ps ⟨0, 0 + ps.length⟩ (old ++ List.replicate ps.length (zeroPoint cl))
      ⟨old.length, old.length + ps.length⟩ = old ++ ps.map (cachedPoint l cl) := by
  apply List.ext_getElem?
  intro j
  simp only [Plan.convert, List.getElem?_mapIdx]
  by_cases hj : j < old.length
  · rw [List.getElem?_append_left hj, List.getElem?_append_left hj]
    cases old[j]? with
    | none => rfl
    | some p => simp only [Option.map_some]; rw [if_neg (by omega)]
  · rw [List.getElem?_append_right (by omega), List.getElem?_append_right (by omega)]
    by_cases hk : j - old.length < ps.length
    · rw [List.getElem?_replicate_of_lt hk, List.getElem?_map, List.getElem?_eq_getElem hk]
      simp only [Option.map_some]
      rw [if_pos (by omega), Nat.zero_add, List.getElem?_eq_getElem hk]
      rfl
    · rw [List.getElem?_eq_none (l := List.replicate _ _) (by simpa using hk),
        List.getElem?_eq_none (l := ps.map _) (by simpa using hk)]
      rfl

theorem write_caching {order : Converters → Converters} (ho : ∀ c, (order c).Perm c) {β : Type} [BorrowedBuffer β]
    {points : β} {l cl : PointLayout} {fns : Converters} (hc : Compatible l cl fns) {w : PntsWriter}
    {ps qs : List Point} (hw : Caching l cl fns w ps) (hb : ShowsPoints points l qs) :
    ∃ cache, w.write order points = .ok { w with cachedPoints := cache } ∧
      Caching l cl fns { w with cachedPoints := cache } (ps ++ qs) := by
  obtain ⟨rs, h1, h2, h3⟩ := hw.cache
  have hlay : layout w.cachedPoints = cl := by rw [h2]; rfl
  have hlen : len w.cachedPoints = rs.length := by
    rw [h2]; exact (HoldsRecords.shows (β := HashMapBuffer) hc.target h1).len_eq.trans (by simp)
  have hrl : rs.length = ps.length := by have := congrArg List.length h3; simpa using this
  by_cases hsame : l = cl
  · subst hsame
    obtain ⟨ys, g1, g2, g3, g4⟩ := append_records (β := HashMapBuffer) hc.target h1 hb
    refine ⟨HashMapBuffer.ofRecords l (rs ++ ys), ?_, hw.expected, hw.cacheLayout, hw.converters, rs ++ ys, ?_, rfl, ?_⟩
    · unfold PntsWriter.write
      rw [if_neg (by rw [hb.layout_eq, hw.expected]; simp), if_pos (by rw [hb.layout_eq, hlay])]
      rw [h2]
      show (append (HoldsRecords.ofRecords l rs : HashMapBuffer) points).bind _ = _
      rw [g4]
      rfl
    · exact h1.append g2
    · rw [List.map_append, List.map_append, h3]
      congr 1
      apply List.ext_getElem (by simp [g1])
      intro i hi1 hi2
      simp only [List.getElem_map]
      have hiy : i < ys.length := by simpa using hi1
      have hiq : i < qs.length := by omega
      obtain ⟨data, d1, d2⟩ := g3 i _ (List.getElem?_eq_getElem hiy)
      obtain ⟨r, e1, e2, e3⟩ := hb.getPoint_ok i _ data (List.getElem?_eq_getElem hiq) d1
      rw [d2] at e1
      cases e1
      rw [← e3, cachedPoint_same hc.target e2]
  · have hres : resized rs (rs.length + qs.length) (List.replicate cl.size (0 : Byte)) =
        rs ++ List.replicate qs.length (List.replicate cl.size 0) := by
      unfold resized
      rw [List.take_of_length_le (by omega)]
      congr 2
      omega
    have hz : AllLen cl.size (resized rs (rs.length + qs.length) (List.replicate cl.size 0)) := by
      rw [hres]
      intro r hr
      rcases List.mem_append.1 hr with hr | hr
      · exact h1 r hr
      · rw [List.eq_of_mem_replicate hr, List.length_replicate]
    have hplan : ∀ e ∈ order fns, _ := fun e he => hc.plan ((ho fns).mem_iff.1 he)
    obtain ⟨rs', g1, g2, g3⟩ := fillColumns_loop (β := HashMapBuffer) hc.target
      (fun e : String × Option Converter => cl.getAttributeByName e.1) (planValue (defaultPlan l) qs 0)
      (c := rs.length) (n := qs.length) (N := rs.length + qs.length) (body := writeAttribute points rs.length)
      (order fns) (by
        intro e he m hm
        obtain ⟨src, dst, f, s1, s2, s3, s4, s5, s6⟩ := hplan e he
        rw [s2] at hm
        cases hm
        exact ⟨s4, fun k hk => (writeValue_eq (base := 0) hc.source hb s3 s5 s6 hk w.cachedPoints).2⟩) (by
        intro e he xs hx hxl
        obtain ⟨src, dst, f, s1, s2, s3, s4, s5, s6⟩ := hplan e he
        unfold writeAttribute
        rw [hb.layout_eq, s1]
        simp only [s2]
        show (expectSome (cl.getAttributeByName e.1)).bind _ = _
        rw [s2]
        show forLoop (List.range (len points)) _ _ = _
        rw [hb.len_eq]
        exact fillColumn_loop hc.target s4
          (fun k hk => (writeValue_eq (base := 0) hc.source hb s3 s5 s6 hk w.cachedPoints).2) hx (by omega)
          (fun b k hk => (writeValue_eq hc.source hb s3 s5 s6 hk b).1)) _ hz (by rw [hres]; simp)
    refine ⟨HashMapBuffer.ofRecords cl rs', ?_, hw.expected, hw.cacheLayout, hw.converters, rs', g1, rfl, ?_⟩
    · unfold PntsWriter.write
      rw [if_neg (by rw [hb.layout_eq, hw.expected]; simp), if_neg (by rw [hb.layout_eq, hlay]; exact hsame)]
      show (forLoop (order w.attributeConverters) (resize w.cachedPoints (len w.cachedPoints + len points))
        (writeAttribute points (len w.cachedPoints))).bind _ = _
      rw [hlen, hb.len_eq, hw.converters, h2]
      rw [show resize (HashMapBuffer.ofRecords cl rs) (rs.length + qs.length) = _ from
        resize_records (β := HashMapBuffer) hc.target h1 _, g2]
      rfl
    · rw [g3, hres, List.map_append, List.map_replicate, pointOf_zeros hc.target, h3, List.map_append]
      have hdef : ∀ q ∈ List.map (cachedPoint l cl) ps ++ List.replicate qs.length (zeroPoint cl), ∀ kv ∈ q,
          ∃ m ∈ cl.attributes, kv.1 = m.definition := by
        intro q hq kv hkv
        rcases List.mem_append.1 hq with hq | hq
        · obtain ⟨p, _, rfl⟩ := List.mem_map.1 hq
          unfold cachedPoint Plan.apply zeroPoint at hkv
          rw [List.map_map] at hkv
          obtain ⟨m, hm, rfl⟩ := List.mem_map.1 hkv
          exact ⟨m, hm, rfl⟩
        · rw [List.eq_of_mem_replicate hq] at hkv
          obtain ⟨m, hm, rfl⟩ := List.mem_map.1 hkv
          exact ⟨m, hm, rfl⟩
      rw [filled_plan]
      · have := convert_new (l := l) (cl := cl) (ps := qs) (old := ps.map (cachedPoint l cl))
        rw [List.length_map] at this
        rw [hrl]
        exact this
      · intro q hq kv hkv
        obtain ⟨m, hm, hkm⟩ := hdef q hq kv hkv
        rw [hkm]
        obtain ⟨e, he, hen⟩ := hc.planned hm
        obtain ⟨src, dst, f, s1, s2, s3, s4, s5, s6⟩ := hc.plan he
        have hdm : dst = m := by
          have := (getByName_iff cl hc.target.names e.1 m).2 ⟨hm, hen.symm⟩
          rw [s2] at this
          exact Option.some.inj this
        subst hdm
        rw [s5]
        refine ⟨fun _ => rfl, fun _ => List.mem_filterMap.2 ⟨e, (ho fns).mem_iff.2 he, by rw [s2]; rfl⟩⟩
      · intro q hq kv hkv r hr p hp
        obtain ⟨m, hm, hkm⟩ := hdef q hq kv hkv
        obtain ⟨e, he, hen⟩ := hc.planned hm
        obtain ⟨src, dst, f, s1, s2, s3, s4, s5, s6⟩ := hc.plan he
        have hdm : dst = m := by
          have := (getByName_iff cl hc.target.names e.1 m).2 ⟨hm, hen.symm⟩
          rw [s2] at this
          exact Option.some.inj this
        subst hdm
        rw [hkm, s5] at hr
        cases hr
        exact ((points_typed hc.source hb hp).1 _).1 (List.mem_map_of_mem s3)
      · omega

end Pasture.Tiles3d
