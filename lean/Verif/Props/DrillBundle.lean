import Verif.Spec.DrillBundle
import Verif.Lemmas.DrillBundle
import Verif.Lemmas.InsideDisc
import Verif.Props.Cutout
/-
C88: the drilled holes of a board in the converter from IDF.
-/
namespace Iges.Props
open Iges.Geo Iges.Spec Iges.Turn Relation

namespace Drills

theorem meet_cross {a b : Seg} (ka : a.kind = .circle) (kb : b.kind = .circle) (ra : 0 < a.radius) (rb : 0 < b.radius) :
    Idf.meet a b = .crossing ↔ HolesCross a b := by
  unfold HolesCross
  rw [← C62_meet_iff ka kb ra rb]
  unfold Idf.meet
  split
  · rename_i h; exact ⟨fun _ => h, fun _ => rfl⟩
  · rename_i h
    split
    · exact ⟨(fun e => by cases e), fun e => absurd e h⟩
    · exact ⟨(fun e => by cases e), fun e => absurd e h⟩

theorem meet_apart {a b : Seg} (ka : a.kind = .circle) (kb : b.kind = .circle) :
    Idf.meet a b = .apart ↔ HolesApart a b := by
  have hi : intersections a b = checkCircles a b := by unfold intersections; rw [ka, kb]
  unfold HolesApart Idf.meet
  rw [hi, ← hyp_planar]
  unfold checkCircles
  simp only
  by_cases h : a.radius + b.radius < hyp (a.center.x - b.center.x) (a.center.y - b.center.y)
  · simp [h]
  · rw [if_neg h]
    simp only [h, iff_false]
    split_ifs <;> simp_all

theorem planar2_comm (p q : Point ℝ) : planar2 p q = planar2 q p := by unfold planar2; ring

theorem cross_symm {a b : Seg} (h : HolesCross a b) : HolesCross b a := by
  obtain ⟨h1, h2, h3⟩ := h
  rw [planar2_comm] at h1 h2
  rw [abs_sub_comm] at h1
  refine ⟨h1, by linarith, ?_⟩
  rw [C51_symmetric, abs_sub_comm]
  exact h3

theorem apart_symm {a b : Seg} (h : HolesApart a b) : HolesApart b a := by
  unfold HolesApart at *
  rw [planar2_comm]; linarith

theorem back {α : Type} {R : α → α → Prop} (hs : ∀ u v, R u v → R v u) {x y : α} (h : ReflTransGen R x y) : ReflTransGen R y x := by
  induction h with
  | refl => exact .refl
  | tail _ hr ih => exact .head (hs _ _ hr) ih

end Drills

open Drills in
/-- C88. The holes of a board, any two of which either cross or have no point in common, are divided into bundles of holes that are
connected by overlaps and into holes that stay by themselves; holes that are not in the same bundle have no point in common,
and no hole is lost.  The holes by themselves are left in the list, and a cutout is made of each bundle; if that fails for one
of them, the list of cutouts holds a pointer to an outline that has been deleted (see `C88_dangling`). -/
theorem C88_bundles (drills : List Seg) (cutouts : List Outline) (hk : ∀ d ∈ drills, d.kind = .circle ∧ 0 < d.radius)
    (hp : drills.Pairwise fun a b => HolesCross a b ∨ HolesApart a b) :
    ∃ alone bundles, Bundled drills alone bundles ∧
      match Idf.mergeDrills drills cutouts with
      | .returns ds cs ret => ds = alone ∧ (ret = true ↔ bundles ≠ []) ∧
          ∃ os, cs = cutouts ++ os ∧ List.Forall₂ (fun b o => Idf.bundleDrills b = some o) bundles os
      | .dangling ds => ds = alone ∧ ∃ b ∈ bundles, Idf.bundleDrills b = none
      | .undefined => False := by
  have fine : drills.Pairwise Idf.Drill.Fine := by
    refine List.Pairwise.imp_of_mem ?_ hp
    intro a b ha hb h
    obtain ⟨ka, ra⟩ := hk a ha
    obtain ⟨kb, rb⟩ := hk b hb
    rcases h with h | h
    · exact Or.inl ⟨(meet_cross ka kb ra rb).2 h, (meet_cross kb ka rb ra).2 (cross_symm h)⟩
    · exact Or.inr ⟨(meet_apart ka kb).2 h, (meet_apart kb ka).2 (apart_symm h)⟩
  obtain ⟨ds, bs, e, hperm, hb, h1, h2, h3⟩ := Idf.Drill.find_spec [] drills (by simpa using fine) .nil (by simp)
  have mem : ∀ x ∈ ds ++ bs.flatten, x.kind = .circle ∧ 0 < x.radius := fun x hx => hk x (by simpa using hperm.subset hx)
  have memb : ∀ b ∈ bs, ∀ x ∈ b, x.kind = .circle ∧ 0 < x.radius := fun b hb x hx =>
    mem x (List.mem_append_right _ (List.mem_flatten.2 ⟨b, hb, hx⟩))
  have memd : ∀ x ∈ ds, x.kind = .circle ∧ 0 < x.radius := fun x hx => mem x (List.mem_append_left _ hx)
  have toApart : ∀ {x y : Seg}, x.kind = .circle ∧ 0 < x.radius → y.kind = .circle ∧ 0 < y.radius → Idf.Drill.Free x y → HolesApart x y :=
    fun hx hy h => (meet_apart hx.1 hy.1).1 h.1
  refine ⟨ds, bs, ⟨by simpa using hperm, fun b hb' => (hb b hb').1, ?_, ?_, ?_, ?_⟩, ?_⟩
  · intro b hb' x hx y hy
    obtain ⟨-, f, -, hf⟩ := hb b hb'
    have conv : ∀ {u v : Seg}, Idf.Drill.Step b u v → u ∈ b ∧ v ∈ b ∧ HolesCross u v := fun {u v} s =>
      ⟨s.1, s.2.1, (meet_cross (memb b hb' u s.1).1 (memb b hb' v s.2.1).1 (memb b hb' u s.1).2 (memb b hb' v s.2.1).2).1 s.2.2⟩
    have up : ∀ z ∈ b, ReflTransGen (fun u v => u ∈ b ∧ v ∈ b ∧ HolesCross u v) f z := fun z hz =>
      (hf z hz).lift id fun _ _ s => conv s
    have down : ReflTransGen (fun u v => u ∈ b ∧ v ∈ b ∧ HolesCross u v) x f :=
      back (fun _ _ s => ⟨s.2.1, s.1, cross_symm s.2.2⟩) (up x hx)
    exact down.trans (up y hy)
  · refine List.Pairwise.imp_of_mem ?_ h1
    exact fun ha hb h => toApart (memd _ ha) (memd _ hb) h
  · exact fun x hx b hb' y hy => toApart (memd x hx) (memb b hb' y hy) (h2 x hx b hb' y hy)
  · refine List.Pairwise.imp_of_mem ?_ h3
    exact fun ha hb h x hx y hy => toApart (memb _ ha x hx) (memb _ hb y hy) (h x hx y hy)
  · have all : match Idf.bundleAll bs with
        | none => ∃ b ∈ bs, Idf.bundleDrills b = none
        | some os => List.Forall₂ (fun b o => Idf.bundleDrills b = some o) bs os := by
      clear e hperm hb h2 h3 mem memb
      induction bs with
      | nil => exact .nil
      | cons b bs ih =>
        unfold Idf.bundleAll
        cases hb : Idf.bundleDrills b with
        | none => exact ⟨b, List.mem_cons_self, hb⟩
        | some o =>
          simp only
          cases hall : Idf.bundleAll bs with
          | none =>
            rw [hall] at ih
            obtain ⟨x, hx, h⟩ := ih
            exact ⟨x, List.mem_cons_of_mem _ hx, h⟩
          | some os => rw [hall] at ih; exact .cons hb ih
    unfold Idf.mergeDrills
    rw [e]
    simp only
    by_cases hn : bs = []
    · subst hn
      exact ⟨rfl, by simp, [], by simp, .nil⟩
    · rw [if_neg hn]
      cases hall : Idf.bundleAll bs with
      | none => rw [hall] at all; exact ⟨rfl, all⟩
      | some os => rw [hall] at all; exact ⟨rfl, by simp [hn], os, rfl, all⟩

end Iges.Props
