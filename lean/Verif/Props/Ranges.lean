import Verif.Props.Nurbs
import Verif.Props.TreeBuild
import Verif.Props.Composite
/-
C29, C32, C33, C34: ranges of values and the meaning of "closed".
-/
namespace Iges.Props.Ranges
open Iges Iges.Spec

/-! ### C29: percentages of colours -/

/-- A percentage out of range is replaced by the value of the default colour. -/
def percent (dflt x : ℚ) : ℚ := if 0 ≤ x ∧ x ≤ 100 then x else dflt

theorem clamp_eq (k : Colour) : k.clamp = ⟨percent 85 k.red, percent 20 k.green, percent 20 k.blue, k.cname⟩ := by
  have h : ∀ (d x : ℚ), (if x < 0 ∨ x > 100 then d else x) = percent d x := by
    intro d x
    unfold percent
    by_cases h : 0 ≤ x ∧ x ≤ 100
    · rw [if_pos h, if_neg (by push Not; exact h)]
    · rw [if_neg h, if_pos]
      by_contra hn
      push Not at hn
      exact h hn
  unfold Colour.clamp
  simp only [h]

/-- C29. Whatever a file says, a colour that was read has percentages from 0 to 100. -/
theorem C29_colour_range (E : PdEnv) (de pdata count : Int) (ls : List Str) (k : Colour) (xs : List Int) (cs : List Str)
    (h : Colour.readPD E de pdata count ls = .val (k, xs, cs)) :
    (0 ≤ k.red ∧ k.red ≤ 100) ∧ (0 ≤ k.green ∧ k.green ≤ 100) ∧ (0 ≤ k.blue ∧ k.blue ≤ 100) := by
  obtain ⟨s, c, c', h⟩ := TreeBuild.readPDWith_val h
  unfold Colour.readParams at h
  obtain ⟨r, _, h⟩ := Rd.bind_val h
  obtain ⟨g, _, h⟩ := Rd.bind_val h
  obtain ⟨b, _, h⟩ := Rd.bind_val h
  have hk : ∃ n, k = Colour.clamp ⟨r.1, g.1, b.1, n⟩ := by
    simp only at h
    split at h
    · obtain ⟨n, _, h⟩ := Rd.bind_val h
      cases h
      exact ⟨_, rfl⟩
    · obtain ⟨n, _, h⟩ := Rd.bind_val h
      cases h
      exact ⟨_, rfl⟩
  obtain ⟨n, rfl⟩ := hk
  rw [clamp_eq]
  have : ∀ d x : ℚ, 0 ≤ d → d ≤ 100 → 0 ≤ percent d x ∧ percent d x ≤ 100 := by
    intro d x h1 h2
    unfold percent
    split
    · assumption
    · exact ⟨h1, h2⟩
  exact ⟨this _ _ (by norm_num) (by norm_num), this _ _ (by norm_num) (by norm_num), this _ _ (by norm_num) (by norm_num)⟩

/-- C29. A colour is written with the percentages that are in range, and with those of the default colour in place of the
others. -/
theorem C29_colour_written (E : PdEnv) (de index : Int) (k : Colour) (xs : List ExtraRef) (cs : List Str) :
    k.format E de xs cs index =
      Colour.format E de ⟨percent 85 k.red, percent 20 k.green, percent 20 k.blue, k.cname⟩ xs cs index := by
  have h : ∀ d x : ℚ, 0 ≤ d → d ≤ 100 → percent d (percent d x) = percent d x := by
    intro d x h1 h2
    unfold percent
    by_cases hx : 0 ≤ x ∧ x ≤ 100
    · rw [if_pos hx, if_pos hx]
    · rw [if_neg hx, if_pos ⟨h1, h2⟩]
  unfold Colour.format
  simp only [clamp_eq]
  rw [h _ _ (by norm_num) (by norm_num), h _ _ (by norm_num) (by norm_num), h _ _ (by norm_num) (by norm_num)]

deriving instance DecidableEq for Colour

/-- C29: a record with a percentage that is too large is read as the default for that component. -/
example : ∃ xs cs, Colour.readPD (exEnv id (1 / 1000)) 7 1 1 [TreeBuild.sampleLine "314,10.0,120.0,30.0;"] =
    .val (⟨10, 20, 30, []⟩, xs, cs) := ⟨[], [], by decide +kernel⟩

/-! ### C32: operations of boolean trees -/

open Iges.Tree in
/-- C32. An operator is accepted just when it is union, intersection or difference and two nodes are there. -/
theorem C32_operator_accepted (s : St) (v : Int) :
    (AddOp s v).2 = true ↔ (v = 1 ∨ v = 2 ∨ v = 3) ∧ 2 ≤ s.nodes.length := by
  unfold AddOp
  split
  · simp; omega
  · split
    · simp; omega
    · simp; omega

open Iges.Tree in
/-- C32. After every sequence of calls all operators in the list are union, intersection or difference. -/
theorem C32_operators_known (cs : List Call) (v : Int) (h : BNode.op v ∈ (run cs).nodes) : v = 1 ∨ v = 2 ∨ v = 3 := by
  have key : ∀ (cs : List Call) (s : St), (∀ v, BNode.op v ∈ s.nodes → v = 1 ∨ v = 2 ∨ v = 3) →
      ∀ v, BNode.op v ∈ (runFrom s cs).nodes → v = 1 ∨ v = 2 ∨ v = 3 := by
    intro cs
    induction cs with
    | nil => intro s hs; exact hs
    | cons c cs ih =>
      intro s hs
      refine ih _ ?_
      cases c with
      | addOp w =>
        intro v hv
        simp only [step, AddOp] at hv
        split at hv
        · exact hs v hv
        · split at hv
          · exact hs v hv
          · simp only [List.mem_append, List.mem_singleton, BNode.op.injEq] at hv
            rcases hv with hv | hv
            · exact hs v hv
            · omega
      | addArg d ty r =>
        intro v hv
        simp only [step, AddArg] at hv
        split at hv
        · exact hs v hv
        · split at hv
          · exact hs v hv
          · split at hv
            · exact hs v hv
            · simp only [List.mem_append, List.mem_singleton, reduceCtorEq, or_false] at hv
              exact hs v hv
      | clear => intro v hv; simp [step, ClearNodes] at hv
      | destroyed d =>
        intro v hv
        simp only [step, unlink] at hv
        split at hv
        · simp at hv
        · exact hs v hv
  exact key cs _ (by simp) v h

example : BNode.op 3 ∈ (Iges.Tree.run TreeBuild.good).nodes ∧ BNode.op 1 ∈ (Iges.Tree.run TreeBuild.good).nodes := by decide

/-! ### C33: the parameter range is within the knots -/

/-- C33. A call that succeeds has a parameter range within the first and the last knot, which is not empty. -/
theorem C33_set_curve_range (sqrt : ℚ → ℚ) (d d' : Nurbs) (nCoeff order : Int) (ks : List ℚ) (coeff : Option (List ℚ))
    (rational : Bool) (v0 v1 : ℚ) (h : d.set sqrt nCoeff order (some ks) coeff rational v0 v1 = .val (true, d')) :
    ∃ first last, ks[0]? = some first ∧ ks[(nCoeff + order - 1).toNat]? = some last ∧ first ≤ v0 ∧ v0 < v1 ∧ v1 ≤ last := by
  have arr : ∀ {l : List ℚ} {i : Int} {x : ℚ}, arrGet l i = .val x → l[i.toNat]? = some x := by
    intro l i x h
    unfold arrGet at h
    split at h
    · cases h
    · split at h <;> simp_all
  unfold Nurbs.set at h
  split at h
  · rename_i ks' cs hk
    cases hk
    split at h
    · cases h
    · split at h
      · cases h
      · obtain ⟨k0, e0, h⟩ := Rd.bind_val h
        obtain ⟨kn, en, h⟩ := Rd.bind_val h
        split at h
        · cases h
        · split at h
          · cases h
          · rename_i g1 g2
            push Not at g1 g2
            exact ⟨k0, kn, arr e0, arr en, g1.1, g2.1, g2.2⟩
  · cases h

/-- C33. The same for surfaces, in both directions. -/
theorem C33_set_surface_range (d d' : NurbsSurf) (nCoeff1 nCoeff2 order1 order2 : Int) (ks1 ks2 : List ℚ)
    (coeff : Option (List ℚ)) (rational per1 per2 : Bool) (u0 u1 v0 v1 : ℚ)
    (h : d.set nCoeff1 nCoeff2 order1 order2 (some ks1) (some ks2) coeff rational per1 per2 u0 u1 v0 v1 = .val (true, d')) :
    (∃ first last, ks1[0]? = some first ∧ ks1[(nCoeff1 + order1 - 1).toNat]? = some last ∧ first ≤ u0 ∧ u0 < u1 ∧ u1 ≤ last) ∧
    (∃ first last, ks2[0]? = some first ∧ ks2[(nCoeff2 + order2 - 1).toNat]? = some last ∧ first ≤ v0 ∧ v0 < v1 ∧ v1 ≤ last) := by
  have arr : ∀ {l : List ℚ} {i : Int} {x : ℚ}, arrGet l i = .val x → l[i.toNat]? = some x := by
    intro l i x h
    unfold arrGet at h
    split at h
    · cases h
    · split at h <;> simp_all
  unfold NurbsSurf.set at h
  split at h
  · rename_i k1 k2 cs hk1 hk2
    cases hk1; cases hk2
    split at h
    · cases h
    · split at h
      · cases h
      · obtain ⟨a0, e0, h⟩ := Rd.bind_val h
        obtain ⟨an, en, h⟩ := Rd.bind_val h
        split at h
        · cases h
        · split at h
          · cases h
          · rename_i g1 g2
            obtain ⟨b0, f0, h⟩ := Rd.bind_val h
            obtain ⟨bn, fn, h⟩ := Rd.bind_val h
            split at h
            · cases h
            · split at h
              · cases h
              · rename_i g3 g4
                push Not at g1 g2 g3 g4
                exact ⟨⟨a0, an, arr e0, arr en, g1.1, g2.1, g2.2⟩, b0, bn, arr f0, arr fn, g3.1, g4.1, g4.2⟩
  · cases h

/-! ### C34: what closed means -/

open Iges.Composite in
/-- C34. A curve that is closed ends where it starts: within twice the resolution, for points of ordinary size. -/
theorem C34_closed_meets (res : ℝ) (cs : List Seg) (hr : 1 / 10 ^ 15 ≤ res) (h : Composite.IsClosed res cs = true) :
    ∃ f l p q, cs.head? = some f ∧ cs.getLast? = some l ∧ f.start = some p ∧ l.stop = some q ∧
      (norm2 p ≤ 10 ^ 15 → norm2 q ≤ 10 ^ 15 → dist2 p q ≤ (2 * res) ^ 2) := by
  unfold Composite.IsClosed at h
  split at h
  · rename_i f l hf hl
    split at h
    · cases h
    · split at h
      · rename_i p q hp hq
        split at h
        · refine ⟨f, l, p, q, hf, hl, hp, hq, fun h1 h2 => ?_⟩
          by_contra hd
          rw [(C51_tolerance p q res hr h1 h2).2 (not_le.1 hd)] at h
          cases h
        · cases h
      · cases h
  · cases h

open Iges.Composite in
/-- C34. A curve of at least two segments, or one arc, that ends exactly where it starts, and that has something to draw, is
closed. -/
theorem C34_closed_found (res : ℝ) (cs : List Seg) (f l : Seg) (p : Point ℝ) (hf : cs.head? = some f)
    (hl : cs.getLast? = some l) (hp : f.start = some p) (hq : l.stop = some p)
    (hlen : cs.length = 1 → f.etype = 100) (hdraw : ∃ s ∈ cs, 0 < s.nseg) : Composite.IsClosed res cs = true := by
  unfold Composite.IsClosed
  rw [hf, hl]
  simp only [hp, hq]
  rw [if_neg (by tauto), if_pos (by simpa using hdraw)]
  exact C51_reflexive p res

/-- C34: a triangle is closed, its first two sides are not. -/
example :
    let a : Composite.Seg := ⟨1, 110, some ⟨0, 0, 0⟩, some ⟨1, 0, 0⟩, 1⟩
    let b : Composite.Seg := ⟨2, 110, some ⟨1, 0, 0⟩, some ⟨0, 1, 0⟩, 1⟩
    let c : Composite.Seg := ⟨3, 110, some ⟨0, 1, 0⟩, some ⟨0, 0, 0⟩, 1⟩
    Composite.IsClosed (1 / 1000) [a, b, c] = true ∧ Composite.IsClosed (1 / 1000) [a, b] = false := by
  intro a b c
  refine ⟨C34_closed_found _ _ a c ⟨0, 0, 0⟩ rfl rfl rfl rfl (by simp) ⟨a, by simp, by simp [a]⟩, ?_⟩
  rw [← Bool.not_eq_true]
  intro h
  obtain ⟨f, l, p, q, hf, hl, hp, hq, hd⟩ := C34_closed_meets _ _ (by norm_num) h
  simp only [List.head?_cons, Option.some.injEq] at hf
  simp only [List.getLast?_cons_cons, List.getLast?_singleton, Option.some.injEq] at hl
  subst hf; subst hl
  simp only [a, Option.some.injEq] at hp
  simp only [b, Option.some.injEq] at hq
  subst hp; subst hq
  have := hd (by norm_num [norm2]) (by norm_num [norm2])
  norm_num [dist2] at this

end Iges.Props.Ranges
