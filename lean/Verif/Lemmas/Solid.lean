import Verif.Lemmas.VectorShows
import Verif.Props.Layout

/-! # Layouts built through the layout API are solid -/

namespace Pasture

open Spec Props

theorem solid_of_history {calls : List (AttrDef × FieldAlignment)} {l : PointLayout}
    (hne : calls ≠ []) (hpos : ∀ c ∈ calls, 0 < c.1.size)
    (h : forLoop calls PointLayout.default (fun l c => l.addAttribute c.1 c.2) = .ok l) : Solid l := by
  obtain ⟨h1, h2, h3, h4⟩ := C02_add_attribute_history calls l h
  refine ⟨?_, h2, ?_, h4, h3.imp fun h => .inl h⟩
  · intro he
    rw [he] at h1
    cases calls with
    | nil => exact hne rfl
    | cons => simp at h1
  · intro m hm
    have : m.definition ∈ calls.map Prod.fst := h1 ▸ List.mem_map_of_mem hm
    obtain ⟨c, hc, he⟩ := List.mem_map.1 this
    have := hpos c hc
    rw [he] at this
    exact this

theorem solid_of_fromAttributes {ds : List AttrDef} {l : PointLayout}
    (hne : ds ≠ []) (hpos : ∀ d ∈ ds, 0 < d.size) (h : PointLayout.fromAttributes ds = .ok l) : Solid l := by
  apply solid_of_history (calls := ds.map fun d => (d, .default))
  · simpa using hne
  · intro c hc
    obtain ⟨d, hd, rfl⟩ := List.mem_map.1 hc
    exact hpos d hd
  · unfold PointLayout.fromAttributes forLoop at h
    unfold forLoop
    rw [List.foldlM_map]
    exact h

theorem solid_of_fromMembers {ms : List Member} {a : Nat} {l : PointLayout}
    (hne : ms ≠ []) (hpos : ∀ m ∈ ms, 0 < m.size)
    (h : PointLayout.fromMembersAndAlignment ms a = .ok l) : Solid l := by
  obtain ⟨h1, _, _, h4, h5, _⟩ := C03_from_members_result ms a hpos l h
  have h0 := ((C03_from_members_accepts_iff ms a hpos).1 ⟨l, h⟩).1
  rw [← h1] at h0 hne hpos h4 h5
  refine ⟨hne, h0, hpos, h5, ?_⟩
  refine List.Pairwise.imp_of_mem ?_ h4
  intro x y hx hy hxy
  exact apart_of_not_overlap (hpos x hx) (hpos y hy) hxy

end Pasture
