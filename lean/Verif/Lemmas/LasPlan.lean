import Verif.Lemmas.LasWriter
import Verif.Props.LasReader

/-!
# How a LAS reader fills the default layout, format by format
-/

namespace Pasture.Las

open BorrowedBuffer Spec Props

/-- The raw layout of a format has the items of the format as attributes. -/
theorem raw_layout : ∀ n ≤ 10, ∃ f raw, Format.new n = .ok f ∧ pointLayoutFromMetadata ⟨f, none⟩ true = .ok raw ∧
    raw.attributes.map (fun m => (m.name, m.size)) = lasItems n ∧ Consecutive 0 raw.attributes raw.size := by
  have key : ∀ n : Fin 11, ∃ f raw, Format.new n = .ok f ∧ pointLayoutFromMetadata ⟨f, none⟩ true = .ok raw ∧
      raw.attributes.map (fun m => (m.name, m.size)) = lasItems n ∧ Consecutive 0 raw.attributes raw.size := by
    intro n
    match n with
    | 0 | 1 | 2 | 3 | 4 | 5 | 6 | 7 | 8 | 9 | 10 => exact ⟨_, _, rfl, rfl, by decide +kernel, by decide +kernel⟩
  intro n hn
  exact key ⟨n, by omega⟩

/-- Attributes one after another. -/
def packedMembers : Nat → List AttrDef → List Member
  | _, [] => []
  | o, d :: ds => ⟨d, o⟩ :: packedMembers (o + d.size) ds

/-- The layout with these attributes and no padding. -/
def packedLayout (ds : List AttrDef) : PointLayout := ⟨packedMembers 0 ds, (ds.map AttrDef.size).sum, 1⟩

/-- The attributes of the raw layout. -/
def rawAttributes (f : Format) : List AttrDef :=
  [localPosition, intensity, if f.isExtended then extendedFlags else basicFlags, classification]
    ++ (if f.isExtended then [userData, scanAngle] else [scanAngleRank, userData])
    ++ [pointSourceId]
    ++ (if f.hasGpsTime then [gpsTime] else [])
    ++ (if f.hasColor then [colorRgb] else [])
    ++ (if f.hasNir then [nir] else [])
    ++ (if f.hasWaveform then [wavePacketDescriptorIndex, waveformDataOffset, waveformPacketSize,
        returnPointWaveformLocation, waveformParameters] else [])

theorem layouts_packed : ∀ n ≤ 10, ∃ f, Format.new n = .ok f ∧
    pointLayoutFromMetadata ⟨f, none⟩ true = .ok (packedLayout (rawAttributes f)) ∧
    pointLayoutFromMetadata ⟨f, none⟩ false = .ok (packedLayout (writtenAttributes f)) := by
  have key : ∀ n : Fin 11, ∃ f, Format.new n = .ok f ∧
      pointLayoutFromMetadata ⟨f, none⟩ true = .ok (packedLayout (rawAttributes f)) ∧
      pointLayoutFromMetadata ⟨f, none⟩ false = .ok (packedLayout (writtenAttributes f)) := by
    intro n
    match n with
    | 0 | 1 | 2 | 3 | 4 | 5 | 6 | 7 | 8 | 9 | 10 => exact ⟨_, rfl, by decide +kernel, by decide +kernel⟩
  intro n hn
  exact key ⟨n, by omega⟩

/-- The way an attribute `d` of the default layout is filled from the raw layout. -/
inductive Filled (n : Nat) (raw : PointLayout) (t : Transforms) (plan : Plan) (d : AttrDef) : Prop where
  | position (h : d = position3D) (hm : localPosition ∈ raw.attributes.map Member.definition)
      (hp : plan d = some ⟨localPosition, fun v => worldPosition t (convertVector .i32 .f64 v)⟩)
  | basic (shift width : Nat) (hn : n ≤ 5) (h : (d.name, shift, width) ∈ packedBasic)
      (hm : basicFlags ∈ raw.attributes.map Member.definition)
      (hp : plan d = some ⟨basicFlags, fun v => bitField 1 shift width v⟩)
  | extended (shift width : Nat) (hn : 5 < n) (h : (d.name, shift, width) ∈ packedExtended)
      (hm : extendedFlags ∈ raw.attributes.map Member.definition)
      (hp : plan d = some ⟨extendedFlags, fun v => convertNumber .u16 .u8 (bitField 2 shift width v)⟩)
  | same (hm : d ∈ raw.attributes.map Member.definition)
      (hn : d.name ∉ ["Position3D", "LASLocalPosition", "LASBasicFlags", "LASExtendedFlags"])
      (hk : (packedFields n).lookup d.name = none) (hp : plan d = some ⟨d, id⟩)


set_option hygiene false in
/-- One attribute of one format. -/
macro "fill" : tactic => `(tactic| first
  | exact .same (by decide) (by decide) rfl rfl
  | exact .position rfl (by decide) rfl
  | exact .basic 0 3 (by decide) (by decide) (by decide) rfl
  | exact .basic 3 3 (by decide) (by decide) (by decide) rfl
  | exact .basic 6 1 (by decide) (by decide) (by decide) rfl
  | exact .basic 7 1 (by decide) (by decide) (by decide) rfl
  | exact .extended 0 4 (by decide) (by decide) (by decide) rfl
  | exact .extended 4 4 (by decide) (by decide) (by decide) rfl
  | exact .extended 8 4 (by decide) (by decide) (by decide) rfl
  | exact .extended 12 2 (by decide) (by decide) (by decide) rfl
  | exact .extended 14 1 (by decide) (by decide) (by decide) rfl
  | exact .extended 15 1 (by decide) (by decide) (by decide) rfl)

set_option maxHeartbeats 2000000 in
theorem plan_packed (t : Transforms) (n : Fin 11) : ∃ f, Format.new n = .ok f ∧
    packedLayout (writtenAttributes f) ≠ packedLayout (rawAttributes f) ∧
    DefaultFor f (packedLayout (writtenAttributes f)) ∧ ∀ d ∈ writtenAttributes f,
      Filled n (packedLayout (rawAttributes f)) t
        (lasPlan (packedLayout (rawAttributes f)) (packedLayout (writtenAttributes f)) t) d := by
  match n with
  | 0 | 1 | 2 | 3 | 4 | 5 | 6 | 7 | 8 | 9 | 10 =>
    refine ⟨_, rfl, by decide +kernel, by decide +kernel, ?_⟩
    repeat refine List.forall_mem_cons.2 ⟨by fill, ?_⟩
    exact List.forall_mem_nil _

theorem plan_filled (t : Transforms) (n : Nat) (hn : n ≤ 10) : ∃ f raw l, Format.new n = .ok f ∧
    pointLayoutFromMetadata ⟨f, none⟩ true = .ok raw ∧ pointLayoutFromMetadata ⟨f, none⟩ false = .ok l ∧ l ≠ raw ∧
    DefaultFor f l ∧ ∀ d ∈ writtenAttributes f, Filled n raw t (lasPlan raw l t) d := by
  obtain ⟨f, h1, h2, h3⟩ := layouts_packed n hn
  obtain ⟨f', h4, h5, h6, h7⟩ := plan_packed t ⟨n, by omega⟩
  obtain rfl : f = f' := by rw [h1] at h4; cases h4; rfl
  exact ⟨f, _, _, h1, h2, h3, h5, h6, h7⟩

end Pasture.Las
