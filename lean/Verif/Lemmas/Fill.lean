import Verif.Lemmas.RecordBuffer
import Verif.Lemmas.Columns

/-!
# Filling attributes of a buffer column by column
-/

namespace Pasture

open Spec BorrowedBuffer BorrowedMutBuffer Props

variable {β : Type} [OwningBuffer β] [HoldsRecords β]

theorem setAttribute_records {l : PointLayout} (hl : Solid l) {rs : List Bytes} (h : AllLen l.size rs) {m : Member}
    (hm : m ∈ l.attributes) {i : Nat} (hi : i < rs.length) {v : Bytes} (hv : v.length = m.size) :
    setAttribute (HoldsRecords.ofRecords l rs : β) m.definition i v =
      .ok (HoldsRecords.ofRecords l (rs.modify i fun r => overwrite r m.offset v)) := by
  have hs := HoldsRecords.step_eq (β := β) hl h (.setAttribute m.definition i v) hv
  unfold Op.stepRecords at hs
  rw [if_pos ⟨List.mem_map_of_mem hm, hi⟩] at hs
  refine Eq.trans hs ?_
  simp only [Except.map, Op.onRecords, find_def_mem hl hm]

/-- Bytes `f k` for attribute `m` of record `c + k`, for all `k < n`. -/
def fillColumn (m : Member) (c n : Nat) (f : Nat → Bytes) (rs : List Bytes) : List Bytes :=
  rs.mapIdx fun j r => if c ≤ j ∧ j < c + n then overwrite r m.offset (f (j - c)) else r

theorem fillColumn_length (m : Member) (c n : Nat) (f : Nat → Bytes) (rs : List Bytes) :
    (fillColumn m c n f rs).length = rs.length := by simp [fillColumn]

theorem fillColumn_allLen {l : PointLayout} (hl : Solid l) {m : Member} (hm : m ∈ l.attributes) {c n : Nat}
    {f : Nat → Bytes} (hf : ∀ k, k < n → (f k).length = m.size) {rs : List Bytes} (h : AllLen l.size rs) :
    AllLen l.size (fillColumn m c n f rs) := by
  intro r hr
  unfold fillColumn at hr
  rw [List.mem_mapIdx] at hr
  obtain ⟨i, hi, rfl⟩ := hr
  have := h _ (List.getElem_mem hi)
  have hin := hl.inside m hm
  split
  · rw [length_overwrite (by rw [hf _ (by omega)]; omega), this]
  · exact this

theorem fillColumn_loop {l : PointLayout} (hl : Solid l) {m : Member} (hm : m ∈ l.attributes) {c n : Nat}
    {f : Nat → Bytes} (hf : ∀ k, k < n → (f k).length = m.size) {rs : List Bytes} (h : AllLen l.size rs)
    (hn : c + n ≤ rs.length) {body : β → Nat → Out β}
    (hbody : ∀ (b : β) k, k < n → body b k = setAttribute b m.definition (c + k) (f k)) :
    forLoop (List.range n) (HoldsRecords.ofRecords l rs : β) body =
      .ok (HoldsRecords.ofRecords l (fillColumn m c n f rs)) := by
  rw [List.range_eq_range']
  refine modify_loop (HoldsRecords.ofRecords l : List Bytes → β) (AllLen l.size)
    (fun k r => overwrite r m.offset (f k)) 0 n c rs h ?_
  intro k ys hk hy hlen
  have hin := hl.inside m hm
  constructor
  · rw [Nat.zero_add, hbody _ k hk, setAttribute_records hl hy hm (by omega) (hf k hk)]
  · intro r hr
    have hky : c + k < ys.length := by omega
    rw [List.modify_eq_set_getElem?, List.getElem?_eq_getElem hky] at hr
    have hrl := hy _ (List.getElem_mem hky)
    exact (hy.set (by show (overwrite _ _ _).length = _; rw [length_overwrite (by rw [hf k hk]; omega), hrl]) _) r hr

/-- The points after some attributes were filled: attribute `d` of point `c + k` with `W d k`. -/
def filled (ds : List AttrDef) (W : AttrDef → Nat → Bytes) (c n : Nat) (ps : List Point) : List Point :=
  ps.mapIdx fun j p => if c ≤ j ∧ j < c + n then
    p.map fun (d, old) => (d, if d ∈ ds then W d (j - c) else old) else p

theorem map_fillColumn {l : PointLayout} (hl : Solid l) {m : Member} (hm : m ∈ l.attributes) {c n : Nat}
    {W : AttrDef → Nat → Bytes} (hf : ∀ k, k < n → (W m.definition k).length = m.size) {rs : List Bytes}
    (h : AllLen l.size rs) :
    (fillColumn m c n (W m.definition) rs).map (pointOf l) = filled [m.definition] W c n (rs.map (pointOf l)) := by
  apply List.ext_getElem?
  intro j
  simp only [fillColumn, filled, List.getElem?_map, List.getElem?_mapIdx]
  cases hr : rs[j]? with
  | none => rfl
  | some r =>
    simp only [Option.map_some]
    by_cases hc : c ≤ j ∧ j < c + n
    · rw [if_pos hc, if_pos hc, pointOf_overwrite hl (h.getElem hr) hm (hf _ (by omega))]
      unfold Point.set
      congr 1
      apply List.map_congr_left
      rintro ⟨d, old⟩ _
      by_cases hd : d = m.definition <;> simp [hd]
    · rw [if_neg hc, if_neg hc]

theorem filled_filled (d : AttrDef) (ds : List AttrDef) (W : AttrDef → Nat → Bytes) (c n : Nat) (ps : List Point) :
    filled ds W c n (filled [d] W c n ps) = filled (d :: ds) W c n ps := by
  apply List.ext_getElem?
  intro j
  simp only [filled, List.getElem?_mapIdx, Option.map_map]
  cases ps[j]? with
  | none => rfl
  | some p =>
    simp only [Option.map_some, Function.comp_apply]
    by_cases hc : c ≤ j ∧ j < c + n
    · simp only [if_pos hc, List.map_map]
      congr 1
      apply List.map_congr_left
      rintro ⟨k, old⟩ _
      by_cases h1 : k = d <;> by_cases h2 : k ∈ ds <;> simp [h1, h2]
    · simp only [if_neg hc]

theorem filled_nil (W : AttrDef → Nat → Bytes) (c n : Nat) (ps : List Point) : filled [] W c n ps = ps := by
  apply List.ext_getElem?
  intro j
  simp only [filled, List.getElem?_mapIdx]
  cases ps[j]? with
  | none => rfl
  | some p => simp

/-- A loop whose steps each fill one attribute or none. -/
theorem fillColumns_loop {α : Type} {l : PointLayout} (hl : Solid l) (dst : α → Option Member) (W : AttrDef → Nat → Bytes)
    {c n N : Nat} {body : β → α → Out β} : ∀ (as : List α),
    (∀ a ∈ as, ∀ m, dst a = some m → m ∈ l.attributes ∧ ∀ k, k < n → (W m.definition k).length = m.size) →
    (∀ a ∈ as, ∀ rs, AllLen l.size rs → rs.length = N → body (HoldsRecords.ofRecords l rs) a =
      .ok (HoldsRecords.ofRecords l (match dst a with
        | none => rs
        | some m => fillColumn m c n (W m.definition) rs))) →
    ∀ (rs : List Bytes), AllLen l.size rs → rs.length = N →
    ∃ rs', AllLen l.size rs' ∧
      forLoop as (HoldsRecords.ofRecords l rs : β) body = .ok (HoldsRecords.ofRecords l rs') ∧
      rs'.map (pointOf l) =
        filled (as.filterMap fun a => (dst a).map Member.definition) W c n (rs.map (pointOf l)) := by
  intro as
  induction as with
  | nil => intro _ _ rs h1 _; exact ⟨rs, h1, rfl, (filled_nil _ _ _ _).symm⟩
  | cons a as ih =>
    intro hd hb rs h1 h2
    have step := hb a (by simp) rs h1 h2
    have ih := ih (fun a ha => hd a (by simp [ha])) (fun a ha => hb a (by simp [ha]))
    rw [forLoop_cons, step]
    cases hda : dst a with
    | none =>
      obtain ⟨rs', g1, g2, g3⟩ := ih rs h1 h2
      refine ⟨rs', g1, g2, ?_⟩
      rw [g3]
      simp [List.filterMap_cons, hda]
    | some m =>
      obtain ⟨hm, hW⟩ := hd a (by simp) m hda
      obtain ⟨rs', g1, g2, g3⟩ := ih _ (fillColumn_allLen (c := c) hl hm hW h1) (by rw [fillColumn_length, h2])
      refine ⟨rs', g1, g2, ?_⟩
      rw [g3, map_fillColumn hl hm hW h1, filled_filled]
      simp [List.filterMap_cons, hda]

end Pasture
