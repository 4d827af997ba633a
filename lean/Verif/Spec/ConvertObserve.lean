import Verif.Model.BufferConvert
import Verif.Spec.Convert
import Verif.Spec.Observe

/-! # Specification: sources of a conversion, and sequences of `set_custom_mapping*` calls -/

namespace Pasture.Spec

/-- A buffer with the points `ps` that can be a source: its memory can be borrowed as columns or, failing
    that, as records. -/
structure SourceShows {σ : Type} [BorrowedBuffer σ] [AsMemory σ] (source : σ) (l : PointLayout)
    (ps : List Point) : Prop where
  points : ShowsPoints source l ps
  memory : match AsMemory.asColumnar (β := σ), AsMemory.asInterleaved (β := σ) with
    | some _, _ => ShowsColumns source l ps
    | none, some _ => ∃ rs, ShowsRecords source l rs ∧ ps = rs.map (pointOf l)
    | none, none => False

/-- One call on the converter. -/
def applyCall (conv : BufferLayoutConverter) : MappingCall → Out BufferLayoutConverter
  | .plain s t => conv.setCustomMapping s t
  | .transformed s t ty f onSource => conv.setCustomMappingWithTransformation s t ty f onSource

/-- Calls one after the other. -/
def applyCalls (conv : BufferLayoutConverter) (calls : List MappingCall) : Out BufferLayoutConverter :=
  calls.foldlM applyCall conv

/-- A converter made by one of the constructors, then customised by `calls`. -/
def Built (source target : PointLayout) (calls : List MappingCall) (conv : BufferLayoutConverter) : Prop :=
  ∃ conv₀, (BufferLayoutConverter.forLayouts source target = .ok conv₀ ∨
      BufferLayoutConverter.forLayoutsWithDefault source target = .ok conv₀) ∧
    applyCalls conv₀ calls = .ok conv

/-- The plan after the calls. -/
def planOf (source : PointLayout) (calls : List MappingCall) : Plan :=
  calls.foldl Plan.update (defaultPlan source)

end Pasture.Spec
