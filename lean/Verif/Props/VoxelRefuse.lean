import Verif.Props.Voxel

/-!
# C57: targets that the voxel grid cannot fill
-/

namespace Pasture.Voxel

open Spec Flt BorrowedBuffer OwningBuffer Props

section
variable {β : Type} [BorrowedBuffer β] {b : β} {l : PointLayout} {ps : List Point}
  {order : List (Int × Nat) → List (Int × Nat)}

theorem reductions_reducible : ∀ e ∈ reductions, e.1 ∈ reducible := by decide +kernel

theorem reduction_none {d : AttrDef} (h : d ∉ reducible) : reductions.lookup d = none := by
  cases hl : reductions.lookup d with
  | none => rfl
  | some r =>
    obtain ⟨k, hk, hm⟩ : ∃ k, k = d ∧ (k, r) ∈ reductions := by
      rw [List.lookup_eq_some_iff] at hl
      obtain ⟨l1, l2, e, _⟩ := hl
      exact ⟨d, rfl, by rw [e]; simp⟩
    subst hk
    exact absurd (reductions_reducible _ hm) h

/-- Reading an attribute that the points do not have panics. -/
theorem value_missing (hl : Solid l) (h : ShowsPoints b l ps) {d : AttrDef} (hd : d ∉ l.attributes.map Member.definition)
    (ty : DataType) (i : Nat) : valueAt b ty d i = .error .panic := by
  unfold valueAt
  rw [(C62_attribute_view_checks b l hl ps h ty d).2 fun hc => hd hc.2]
  rfl

theorem loop_panics {σ : Type} {is : List Nat} (hne : is ≠ []) {s : σ} {f : σ → Nat → Out σ}
    (h : ∀ s i, f s i = .error .panic) : forLoop is s f = .error .panic := by
  cases is with
  | nil => exact absurd rfl hne
  | cons i is =>
    rw [forLoop_cons, h]
    rfl

theorem reduced_missing (hl : Solid l) (h : ShowsPoints b l ps) {d : AttrDef} (hd : d ∉ l.attributes.map Member.definition)
    {is : List Nat} (hne : is ≠ []) (r : Reduction) : reducedValue order b d is r = .error .panic := by
  have hv := value_missing hl h hd d.datatype
  cases r with
  | averageVec p =>
    unfold reducedValue averageVec
    dsimp only
    rw [loop_panics hne fun s i => by
      unfold sumVecStep
      split
      · rfl
      · rw [hv]; rfl]
    rfl
  | averageNum p =>
    unfold reducedValue averageNum
    dsimp only
    rw [loop_panics hne fun s i => by
      unfold sumNumStep
      split
      · rfl
      · rw [hv]; rfl]
    rfl
  | mostCommon p =>
    unfold reducedValue mostCommon
    dsimp only
    rw [loop_panics hne fun s i => by
      unfold countStep
      split
      · rfl
      · rw [hv]; rfl]
    rfl
  | mostCommonFlag =>
    unfold reducedValue mostCommon
    dsimp only
    rw [loop_panics hne fun s i => by
      unfold countStep
      split
      · rfl
      · rw [hv]; rfl]
    rfl
  | maxPool p =>
    unfold reducedValue maxPool
    dsimp only
    rw [loop_panics hne fun s i => by
      unfold maxPoolStep
      split
      · rfl
      · rw [hv]; rfl]
    rfl

theorem set_refused (hl : Solid l) (h : ShowsPoints b l ps) {l2 : PointLayout} (hl2 : Solid l2)
    (ho : ∀ c, (order c).Perm c) {is : List Nat} (hi : ∀ i ∈ is, i < ps.length) (hne : is ≠ []) :
    ∀ (ms : List Member), (∀ m ∈ ms, m ∈ l2.attributes) →
      (∃ m ∈ ms, ¬ (m.definition ∈ reducible ∧ m.definition ∈ l.attributes.map Member.definition)) →
      ∀ (c : UntypedPoint), c.layout = l2 → c.buffer.length = l2.size →
      forLoop ms c (setStep order b is) = .error .panic := by
  intro ms
  induction ms with
  | nil => rintro _ ⟨m, hm, _⟩; cases hm
  | cons m ms ih =>
    intro hmem hbad c h1 h2
    rw [forLoop_cons]
    by_cases hg : m.definition ∈ reducible ∧ m.definition ∈ l.attributes.map Member.definition
    · have hval : Value order b ps is m.definition := by
        obtain ⟨m', hm', e⟩ := List.mem_map.1 hg.2
        rw [← e]
        exact value_of hl h hm' (e ▸ hg.1) ho is hi hne
      obtain ⟨q, e, g1, g2, _⟩ := set_loop hl2 [m] (fun m' hm' => hmem m' (by
        rw [List.mem_singleton.1 hm']; exact List.mem_cons_self)) (by simp) (fun m' hm' => by
        rw [List.mem_singleton.1 hm']; exact hval) c h1 h2
      rw [forLoop_cons] at e
      cases hs : setStep order b is c m with
      | error f => rw [hs] at e; cases e
      | ok q' =>
        rw [hs] at e
        have : q' = q := Except.ok.inj e
        subst this
        refine ih (fun m' hm' => hmem m' (List.mem_cons_of_mem _ hm')) ?_ q' g1 g2
        obtain ⟨m', hm', hb⟩ := hbad
        rcases List.mem_cons.1 hm' with rfl | hm'
        · exact absurd hg hb
        · exact ⟨m', hm', hb⟩
    · have hs : setStep order b is c m = .error .panic := by
        unfold setStep
        by_cases hr : m.definition ∈ reducible
        · cases reductions.lookup m.definition with
          | none => rfl
          | some r =>
            dsimp only
            rw [reduced_missing hl h (fun hc => hg ⟨hr, hc⟩) hne r]
            rfl
        · rw [reduction_none hr]
          rfl
      rw [hs]
      rfl

end

end Pasture.Voxel

namespace Pasture.Props

open Spec Voxel Flt BorrowedBuffer OwningBuffer Las

/-- C57: a target with an attribute that the source does not have, or that the filter does not know how to reduce, makes the
    filter panic. -/
theorem C57_refuses {β γ : Type} [BorrowedBuffer β] [OwningBuffer γ] (b : β) (l : PointLayout)
    (hl : Solid l) (ps : List Point) (h : ShowsPoints b l ps) (hne : ps ≠ [])
    (hpos : position3D ∈ l.attributes.map Member.definition) (hf : ∀ p ∈ positionsOf ps, FinitePosition p)
    (target : γ) (hl2 : Solid (layout target)) (hc : ¬ Covered l (layout target))
    (order : List (Int × Nat) → List (Int × Nat)) (ho : ∀ c, (order c).Perm c)
    (leaf : P3 F64) (hn : NotNaN leaf.x ∧ NotNaN leaf.y ∧ NotNaN leaf.z) :
    ∃ box, Tightest NotNaN box (positionsOf ps) ∧ ∀ kx ky kz : Nat,
      Reaches box.min.x box.max.x leaf.x kx → Reaches box.min.y box.max.y leaf.y ky →
      Reaches box.min.z box.max.z leaf.z kz → ∀ fuel, kx < fuel → ky < fuel → kz < fuel →
      voxelgridFilter fuel order b leaf target = some (.error .panic) := by
  obtain ⟨box, h1, h2, hpne⟩ := voxel_bounds hl h hne hpos hf
  refine ⟨box, h2, ?_⟩
  intro kx ky kz rx ry rz fuel fx fy fz
  have hbad : ∃ m ∈ (layout target).attributes,
      ¬ (m.definition ∈ reducible ∧ m.definition ∈ l.attributes.map Member.definition) := by
    apply Classical.byContradiction
    intro hno
    apply hc
    intro m hm
    apply Classical.byContradiction
    intro hb
    exact hno ⟨m, hm, hb⟩
  unfold voxelgridFilter
  rw [h.layout_eq, if_neg (not_not_intro ((Las.hasAttribute_iff l _).2 hpos)), h1]
  dsimp only
  unfold createMarkers
  rw [markers_reach rx fx, markers_reach ry fy, markers_reach rz fz]
  show some (filterWith order b _ _ _ target) = _
  congr 1
  obtain ⟨m, hm, hd⟩ := List.mem_map.1 hpos
  obtain ⟨xs, hx, _⟩ := column_some hl h hm
  have hv := view_values hl h hm hx
  have hty : m.datatype = .vec3f64 := by show m.definition.datatype = _; rw [hd]; rfl
  rw [hty] at hv
  have hps : xs.map readVec3F64 = positionsOf ps := by
    unfold positionsOf
    rw [column_all hx, hd]
    rfl
  have hleaf := find_leaf hpne hf h2 hn rx ry rz
  obtain ⟨vs, c1, c2⟩ := collect_voxels _ _ _ (positionsOf ps) fun p hp => by
    obtain ⟨v, hv, _⟩ := hleaf p hp
    exact ⟨v, hv⟩
  have hplen : (positionsOf ps).length = ps.length := by rw [← hps, List.length_map, (column_get hx).1]
  unfold filterWith
  rw [show AttributeView.new b .vec3f64 position3D = .ok ⟨.vec3f64, m⟩ from
    (C62_attribute_view_checks b l hl ps h _ _).1 rfl m hm hd]
  show (AttributeView.values b _).bind _ = _
  rw [hv]
  show (collectVoxels _ _ _ _).bind _ = _
  rw [hps, c1]
  show forLoop vs target (centroidStep order b) = _
  cases vs with
  | nil =>
    obtain ⟨v, ⟨hv, _⟩, _⟩ := (collected_partition c2 (g := ⟨markersOf box.min.x leaf.x kx, markersOf box.min.y leaf.y ky,
      markersOf box.min.z leaf.z kz⟩) fun p hp v hv => by
      obtain ⟨v', hv', hn'⟩ := hleaf p hp
      rw [hv'] at hv
      cases hv
      exact hn').exactlyOne 0 (by
      rw [hplen]
      exact Nat.pos_of_ne_zero fun h0 => hne (List.length_eq_zero_iff.1 h0))
    cases hv
  | cons v vs =>
    rw [forLoop_cons]
    have hstep : centroidStep order b target v = .error .panic := by
      unfold centroidStep
      dsimp only
      unfold setAllAttributes
      split
      · rfl
      · rw [set_refused hl h hl2 ho (fun i hi => by
          rw [← hplen]; exact (c2.inside v List.mem_cons_self i hi).1) (c2.nonempty v List.mem_cons_self) _ (fun _ hm => hm)
          hbad _ rfl (by simp [UntypedPoint.new, zeros])]
        rfl
    rw [hstep]
    rfl

namespace VoxelExample

/-- A target with a colour that the points of the example do not have. -/
def wishLayout : PointLayout := ⟨[⟨position3D, 0⟩, ⟨⟨"ColorRGB", .vec3u16⟩, 24⟩], 32, 8⟩

/-- A target with an attribute that is no standard attribute. -/
def customLayout : PointLayout := ⟨[⟨position3D, 0⟩, ⟨⟨"Custom", .f64⟩, 24⟩], 32, 8⟩

/-- `C57_refuses` applies to both. -/
example : Solid wishLayout ∧ ¬ Covered gridLayout wishLayout ∧ Solid customLayout ∧ ¬ Covered customLayout customLayout := by
  refine ⟨?_, ?_, ?_, ?_⟩
  · exact ⟨by decide +kernel, by decide +kernel, by decide +kernel, by decide +kernel, by decide +kernel⟩
  · unfold Covered; decide +kernel
  · exact ⟨by decide +kernel, by decide +kernel, by decide +kernel, by decide +kernel, by decide +kernel⟩
  · unfold Covered; decide +kernel

end VoxelExample

end Pasture.Props
