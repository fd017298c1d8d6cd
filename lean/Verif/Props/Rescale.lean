import Verif.Spec.Rescale
import Verif.Props.Nurbs
/-
C17, C18: unit conversion and model scale.
-/
namespace Iges.Props
open Iges

/-! ### The loop over the entities -/

/-- The answer of the parent loop for the entity at `i` (entities other than 126 do not ask). -/
def paramOf (h : Heap) (fuel : Nat) (i : Nat) : Option Bool :=
  match (h i).data with
  | .curve _ => paramCurve h fuel [i] (h i).users.head?
  | _ => some false

/-- Two heaps with the same users and the same curves on surfaces. -/
def SameLinks (h h' : Heap) : Prop :=
  ∀ j, (h' j).users = (h j).users ∧ ∀ b, (h' j).data = .onSurface b ↔ (h j).data = .onSurface b

theorem SameLinks.refl (h : Heap) : SameLinks h h := fun _ => ⟨rfl, fun _ => Iff.rfl⟩

theorem SameLinks.trans {a b c : Heap} (h1 : SameLinks a b) (h2 : SameLinks b c) : SameLinks a c :=
  fun j => ⟨(h2 j).1.trans (h1 j).1, fun x => ((h2 j).2 x).trans ((h1 j).2 x)⟩

theorem SameLinks.symm {a b : Heap} (h : SameLinks a b) : SameLinks b a :=
  fun j => ⟨(h j).1.symm, fun x => ((h j).2 x).symm⟩

/-- One step of the loop when the parent is not a curve on a surface. -/
theorem paramCurve_up (h : Heap) (n : Nat) (eps : List Nat) (e : Nat) (hd : ∀ b, (h e).data ≠ .onSurface b) :
    paramCurve h (n + 1) eps (some e) = paramCurve h n (eps ++ [e]) (h e).users.head? := by
  rw [paramCurve]
  split
  · rename_i hb; exact absurd hb (hd _)
  · rename_i hb; exact absurd hb (hd _)
  · rfl

theorem paramCurve_found (h : Heap) (n : Nat) (eps : List Nat) (e : Nat) (b : Option Nat) (hd : (h e).data = .onSurface b) :
    paramCurve h (n + 1) eps (some e) = some (b.elim false eps.contains) := by
  rw [paramCurve, hd]
  cases b <;> rfl

theorem paramCurve_congr {h h' : Heap} (hs : SameLinks h h') (n : Nat) (eps : List Nat) (e : Option Nat) :
    paramCurve h' n eps e = paramCurve h n eps e := by
  induction n generalizing eps e with
  | zero => rfl
  | succ n ih =>
    cases e with
    | none => rfl
    | some e =>
      by_cases hd : ∃ b, (h e).data = .onSurface b
      · obtain ⟨b, hb⟩ := hd
        rw [paramCurve_found h n eps e b hb, paramCurve_found h' n eps e b (((hs e).2 b).mpr hb)]
      · have hd' : ∀ b, (h e).data ≠ .onSurface b := fun b hb => hd ⟨b, hb⟩
        rw [paramCurve_up h n eps e hd', paramCurve_up h' n eps e (fun b hb => hd' b (((hs e).2 b).mp hb)), ih, (hs e).1]

theorem rescale_onSurface {p : Bool} {sf : ℚ} {d d' : EntData} (h : d.rescale p sf = some d') (b : Option Nat) :
    d' = .onSurface b ↔ d = .onSurface b := by
  cases d <;> simp only [EntData.rescale, Option.some.injEq, reduceCtorEq] at h <;> subst h <;> simp

theorem rescale_isCurve {p : Bool} {sf : ℚ} {d d' : EntData} (h : d.rescale p sf = some d') :
    (∃ k, d' = .curve k) ↔ (∃ k, d = .curve k) := by
  cases d <;> simp only [EntData.rescale, Option.some.injEq, reduceCtorEq] at h <;> subst h <;> simp

theorem paramOf_curve (h : Heap) (fuel i : Nat) (hc : ∃ k, (h i).data = .curve k) :
    paramOf h fuel i = paramCurve h fuel [i] (h i).users.head? := by
  obtain ⟨k, hk⟩ := hc
  rw [paramOf, hk]

theorem paramOf_other (h : Heap) (fuel i : Nat) (hc : ¬ ∃ k, (h i).data = .curve k) : paramOf h fuel i = some false := by
  rw [paramOf]
  split
  · rename_i k hk; exact absurd ⟨k, hk⟩ hc
  · rfl

theorem rescaleAt_eq (fuel : Nat) (sf : ℚ) (h : Heap) (i : Nat) :
    rescaleAt fuel sf h i = match paramOf h fuel i with
      | none => none
      | some p => match (h i).data.rescale p sf with
        | none => some (false, h)
        | some d => some (true, Function.update h i { h i with data := d }) := rfl

theorem sameLinks_update {h : Heap} {i : Nat} {p : Bool} {sf : ℚ} {d : EntData} (hd : (h i).data.rescale p sf = some d) :
    SameLinks h (Function.update h i { h i with data := d }) := by
  intro j
  by_cases hj : j = i
  · subst hj
    simp only [Function.update_self]
    exact ⟨trivial, rescale_onSurface hd⟩
  · rw [Function.update_of_ne hj]
    exact ⟨rfl, fun _ => Iff.rfl⟩

theorem paramOf_congr {h h' : Heap} (hs : SameLinks h h') (fuel i : Nat)
    (hc : (∃ k, (h' i).data = .curve k) ↔ (∃ k, (h i).data = .curve k)) : paramOf h' fuel i = paramOf h fuel i := by
  by_cases hk : ∃ k, (h i).data = .curve k
  · rw [paramOf_curve h fuel i hk, paramOf_curve h' fuel i (hc.mpr hk), paramCurve_congr hs, (hs i).1]
  · rw [paramOf_other h fuel i hk, paramOf_other h' fuel i (fun hc' => hk (hc.mp hc'))]

/-- The loop succeeds exactly if every entity can be scaled, and then the new heap is determined: every
listed entity was scaled once, nothing else changed. -/
theorem rescaleAll_iff (fuel : Nat) (sf : ℚ) (h h' : Heap) (is : List Nat) (hn : is.Nodup) :
    rescaleAll fuel sf h is = some (true, h') ↔
      (∀ i ∈ is, ∃ p d, paramOf h fuel i = some p ∧ (h i).data.rescale p sf = some d ∧ h' i = { h i with data := d }) ∧
      ∀ i ∉ is, h' i = h i := by
  induction is generalizing h with
  | nil =>
    simp only [rescaleAll, Option.some.injEq, Prod.mk.injEq, true_and, List.not_mem_nil, false_implies, not_false_eq_true,
      forall_const]
    exact ⟨fun e => by subst e; exact fun _ => rfl, fun e => (funext e).symm⟩
  | cons a l ih =>
    obtain ⟨hna, hnl⟩ := List.nodup_cons.mp hn
    rw [rescaleAll, rescaleAt_eq]
    cases hp : paramOf h fuel a with
    | none =>
      simp only [reduceCtorEq, false_iff]
      rintro ⟨h1, _⟩
      obtain ⟨p, d, h2, _⟩ := h1 a (by simp)
      rw [hp] at h2; cases h2
    | some p =>
      simp only
      cases hd : (h a).data.rescale p sf with
      | none =>
        simp only [Option.some.injEq, Prod.mk.injEq, Bool.false_eq_true, false_and, false_iff]
        rintro ⟨h1, _⟩
        obtain ⟨p', d, h2, h3, _⟩ := h1 a (by simp)
        rw [hp] at h2; cases h2; rw [hd] at h3; cases h3
      | some d =>
        simp only
        rw [ih _ hnl]
        have hs := sameLinks_update (h := h) (i := a) hd
        have hcv : ∀ i, (∃ k, (Function.update h a { h a with data := d } i).data = .curve k) ↔ ∃ k, (h i).data = .curve k := by
          intro i
          by_cases hi : i = a
          · subst hi; simp only [Function.update_self]; exact rescale_isCurve hd
          · rw [Function.update_of_ne hi]
        constructor
        · rintro ⟨h1, h2⟩
          refine ⟨fun i hi => ?_, fun i hi => ?_⟩
          · rcases List.mem_cons.mp hi with rfl | hi
            · refine ⟨p, d, hp, hd, ?_⟩
              rw [h2 i hna, Function.update_self]
            · have hia : i ≠ a := fun e => hna (e ▸ hi)
              obtain ⟨p', d', h3, h4, h5⟩ := h1 i hi
              rw [paramOf_congr hs fuel i (hcv i)] at h3
              rw [Function.update_of_ne hia] at h4 h5
              exact ⟨p', d', h3, h4, h5⟩
          · rw [h2 i (fun hm => hi (List.mem_cons_of_mem _ hm)), Function.update_of_ne (fun e => hi (by simp [e]))]
        · rintro ⟨h1, h2⟩
          refine ⟨fun i hi => ?_, fun i hi => ?_⟩
          · have hia : i ≠ a := fun e => hna (e ▸ hi)
            obtain ⟨p', d', h3, h4, h5⟩ := h1 i (List.mem_cons_of_mem _ hi)
            refine ⟨p', d', ?_, ?_, ?_⟩
            · rw [paramOf_congr hs fuel i (hcv i)]; exact h3
            · rw [Function.update_of_ne hia]; exact h4
            · rw [Function.update_of_ne hia]; exact h5
          · by_cases hia : i = a
            · subst hia
              obtain ⟨p', d', h3, h4, h5⟩ := h1 i (by simp)
              rw [hp] at h3; cases h3; rw [hd] at h4; cases h4
              rw [Function.update_self]; exact h5
            · rw [Function.update_of_ne hia, h2 i (by simp [hia, hi])]

theorem rescaleAll_links {fuel : Nat} {sf : ℚ} {h h' : Heap} {is : List Nat} (hn : is.Nodup)
    (hr : rescaleAll fuel sf h is = some (true, h')) :
    SameLinks h h' ∧ ∀ i, (∃ k, (h' i).data = .curve k) ↔ ∃ k, (h i).data = .curve k := by
  obtain ⟨h1, h2⟩ := (rescaleAll_iff fuel sf h h' is hn).mp hr
  refine ⟨fun j => ?_, fun j => ?_⟩
  · by_cases hj : j ∈ is
    · obtain ⟨p, d, _, h4, h5⟩ := h1 j hj
      rw [h5]
      exact ⟨rfl, rescale_onSurface h4⟩
    · rw [h2 j hj]; exact ⟨rfl, fun _ => Iff.rfl⟩
  · by_cases hj : j ∈ is
    · obtain ⟨p, d, _, h4, h5⟩ := h1 j hj
      rw [h5]
      exact rescale_isCurve h4
    · rw [h2 j hj]

/-! ### Scaling twice -/

theorem scaleCoeffs_comp (xy : Bool) (p3 : Int) (a b : ℚ) (n : Nat) (cs : List ℚ) :
    scaleCoeffs xy p3 b n (scaleCoeffs xy p3 a n cs) = scaleCoeffs xy p3 (a * b) n cs := by
  induction n generalizing cs with
  | zero => rfl
  | succ n ih =>
    rcases eq_or_ne p3 0 with rfl | h0
    · rcases cs with _ | ⟨x, _ | ⟨y, _ | ⟨z, _ | ⟨w, r⟩⟩⟩⟩ <;> cases xy <;> simp [scaleCoeffs, ih, mul_assoc]
    · rcases cs with _ | ⟨x, _ | ⟨y, _ | ⟨z, r⟩⟩⟩ <;> cases xy <;> simp [scaleCoeffs, h0, ih, mul_assoc]

theorem scaleCoeffs_one (xy : Bool) (p3 : Int) (n : Nat) (cs : List ℚ) : scaleCoeffs xy p3 1 n cs = cs := by
  induction n generalizing cs with
  | zero => rfl
  | succ n ih =>
    rcases eq_or_ne p3 0 with rfl | h0
    · rcases cs with _ | ⟨x, _ | ⟨y, _ | ⟨z, _ | ⟨w, r⟩⟩⟩⟩ <;> simp [scaleCoeffs, ih]
    · rcases cs with _ | ⟨x, _ | ⟨y, _ | ⟨z, r⟩⟩⟩ <;> simp [scaleCoeffs, h0, ih]

theorem rescale_comp {p : Bool} {a b : ℚ} {d d1 d2 : EntData} (h1 : d.rescale p a = some d1) (h2 : d1.rescale p b = some d2) :
    d.rescale p (a * b) = some d2 := by
  cases d <;> simp only [EntData.rescale, Option.some.injEq, reduceCtorEq] at h1 <;> subst h1 <;>
    simp only [EntData.rescale, Option.some.injEq] at h2 <;> subst h2 <;> simp only [EntData.rescale, Option.some.injEq]
  · simp [Arc.rescale, mul_assoc]
  · simp [Conic.rescale, mul_assoc]
  · simp [Line.rescale, mul_assoc]
  · simp [Revolution.rescale]
  · simp [TabCyl.rescale, mul_assoc]
  · simp [txRescale, mul_assoc]
  · rename_i k
    unfold Nurbs.rescale
    rcases hk : k.coeffs with _ | cs <;> simp [hk, scaleCoeffs_comp]
  · rename_i k
    unfold NurbsSurf.rescale
    rcases hk : k.coeffs with _ | cs <;> simp [hk, scaleCoeffs_comp]
  · simp [Cylinder.rescale, mul_assoc]
  · simp [Extrusion.rescale, mul_assoc]
  · simp [SubInstance.rescale, mul_assoc]
  · simp [mul_assoc]

theorem rescale_one {p : Bool} {d d1 : EntData} (h : d.rescale p 1 = some d1) : d1 = d := by
  cases d <;> simp only [EntData.rescale, Option.some.injEq, reduceCtorEq] at h <;> subst h
  · simp [Arc.rescale]
  · simp [Conic.rescale]
  · simp [Line.rescale]
  · simp [Revolution.rescale]
  · simp [TabCyl.rescale]
  · simp [txRescale]
  · rename_i k
    unfold Nurbs.rescale
    rcases hk : k.coeffs with _ | cs <;> simp [scaleCoeffs_one]
    rw [← hk]
  · rename_i k
    unfold NurbsSurf.rescale
    rcases hk : k.coeffs with _ | cs <;> simp [scaleCoeffs_one]
    rw [← hk]
  · simp [Cylinder.rescale]
  · simp [Extrusion.rescale]
  · simp [SubInstance.rescale]
  · simp
  · rfl
  · rfl

theorem rescaleAll_comp {fuel : Nat} {a b : ℚ} {h h1 h2 : Heap} {is : List Nat} (hn : is.Nodup)
    (r1 : rescaleAll fuel a h is = some (true, h1)) (r2 : rescaleAll fuel b h1 is = some (true, h2)) :
    rescaleAll fuel (a * b) h is = some (true, h2) := by
  obtain ⟨hs, hc⟩ := rescaleAll_links hn r1
  obtain ⟨x1, x2⟩ := (rescaleAll_iff _ _ _ _ _ hn).mp r1
  obtain ⟨y1, y2⟩ := (rescaleAll_iff _ _ _ _ _ hn).mp r2
  refine (rescaleAll_iff _ _ _ _ _ hn).mpr ⟨fun i hi => ?_, fun i hi => by rw [y2 i hi, x2 i hi]⟩
  obtain ⟨p, d, e1, e2, e3⟩ := x1 i hi
  obtain ⟨p', d', f1, f2, f3⟩ := y1 i hi
  rw [paramOf_congr hs fuel i (hc i), e1] at f1
  cases f1
  rw [e3] at f2 f3
  exact ⟨p, d', e1, rescale_comp e2 f2, f3⟩

theorem rescaleAll_one {fuel : Nat} {h h1 : Heap} {is : List Nat} (hn : is.Nodup)
    (r : rescaleAll fuel 1 h is = some (true, h1)) : h1 = h := by
  obtain ⟨x1, x2⟩ := (rescaleAll_iff _ _ _ _ _ hn).mp r
  funext i
  by_cases hi : i ∈ is
  · obtain ⟨p, d, _, e2, e3⟩ := x1 i hi
    rw [e3, rescale_one e2]
  · exact x2 i hi

/-! ### C17: the effect on one entity -/

/-- The entities for which the code scales correctly: no unsupported entity, conics centred without linear
and constant terms, consistent NURBS data, and on a parameter plane only NURBS curves (and entities without
coordinates). -/
def Scalable (param : Prop) : EntData → Prop
  | .null => False
  | .conic k => ¬ param ∧ k.D = 0 ∧ k.E = 0 ∧ k.F = 0
  | .curve d => Spec.CurveSizes d
  | .surf d => Spec.SurfSizes d ∧ ¬ param
  | .revolution _ | .extrusion _ | .tx _ | .onSurface _ | .links _ => True
  | _ => ¬ param

theorem scaleCoeffs_array (param : Bool) (p3 : Int) (f : ℚ) (ps : List (Point ℚ × ℚ)) :
    ∃ qs, scaleCoeffs (!param) p3 f ps.length (Spec.ctrlArray p3 ps) = Spec.ctrlArray p3 qs ∧
      List.Forall₂ (Spec.scaledCtrl param f) ps qs := by
  induction ps with
  | nil => exact ⟨[], rfl, .nil⟩
  | cons a l ih =>
    obtain ⟨qs, h1, h2⟩ := ih
    refine ⟨((if param then ⟨a.1.x, a.1.y, a.1.z * f⟩ else ⟨a.1.x * f, a.1.y * f, a.1.z * f⟩), a.2) :: qs, ?_,
      .cons ⟨?_, rfl⟩ h2⟩
    · by_cases h0 : p3 = 0 <;> cases param <;>
        simp only [Spec.ctrlArray, List.flatMap_cons, h0, if_true, if_false, List.length_cons, List.cons_append, List.nil_append,
          scaleCoeffs, Bool.not_true, Bool.not_false, Bool.false_eq_true] at h1 ⊢ <;> simp only [h1]
    · cases param <;> simp [Spec.scaledPoint, mul_comm]

theorem scaled_of_rescale {param : Bool} {f : ℚ} (hf : f ≠ 0) {d d' : EntData} (hs : Scalable (param = true) d)
    (h : d.rescale param f = some d') : Spec.Scaled param f d d' := by
  cases d <;> simp only [EntData.rescale, Option.some.injEq, reduceCtorEq] at h <;> subst h
  case arc a => have : param = false := by simpa [Scalable] using hs
                subst this; simp [Spec.Scaled, Spec.scaledPoint, Arc.rescale, mul_comm]
  case line a => have : param = false := by simpa [Scalable] using hs
                 subst this; simp [Spec.Scaled, Spec.scaledPoint, Line.rescale, mul_comm]
  case conic k =>
    obtain ⟨hp, hD, hE, hF⟩ := hs
    have : param = false := by simpa using hp
    subst this
    refine ⟨by simp [Spec.scaledPoint, Conic.rescale, mul_comm], by simp [Spec.scaledPoint, Conic.rescale, mul_comm], ?_⟩
    rintro ⟨px, py, pz⟩ ⟨qx, qy, qz⟩ hq
    simp only [Spec.scaledPoint, Bool.false_eq_true, if_false] at hq
    obtain ⟨⟨rfl, rfl⟩, rfl⟩ := hq
    simp only [Spec.conicAt, Conic.rescale, hD, hE, hF]
    rw [show k.A * f * (f * px) ^ 2 + k.B * f * (f * px) * (f * py) + k.C * f * (f * py) ^ 2 + 0 * f * (f * px) + 0 * f * (f * py) + 0 * f
      = f ^ 3 * (k.A * px ^ 2 + k.B * px * py + k.C * py ^ 2 + 0 * px + 0 * py + 0) by ring]
    simp [hf]
  case revolution r => rfl
  case tabCyl t => have : param = false := by simpa [Scalable] using hs
                   subst this; simp [Spec.Scaled, Spec.scaledPoint, TabCyl.rescale, mul_comm]
  case tx t => simp [Spec.Scaled, Spec.scaledPoint, txRescale, mul_comm]
  case curve k =>
    unfold Nurbs.rescale
    simp only [Scalable] at hs
    rcases hk : k.coeffs with _ | cs
    · simp only [Spec.Scaled]; simp [hk]
    · simp only [Spec.Scaled]
      refine ⟨by simp, by simp [hk], fun ps hps => ?_⟩
      rw [hk, Option.some.injEq] at hps
      subst hps
      unfold Spec.CurveSizes at hs
      rw [hk] at hs
      have hl : k.nCoeffs.toNat = ps.length := by
        rcases hkn : k.knots with _ | ks <;> rw [hkn] at hs <;> simp only at hs
        have := hs.2.2.2
        rw [ctrlArray_length] at this
        split at this <;> push_cast at this <;> omega
      obtain ⟨qs, e1, e2⟩ := scaleCoeffs_array param k.PROP3 f ps
      exact ⟨qs, by rw [hl, e1], e2⟩
  case surf k =>
    obtain ⟨hs, hp⟩ := hs
    have : param = false := by simpa using hp
    subst this
    unfold NurbsSurf.rescale
    rcases hk : k.coeffs with _ | cs
    · simp only [Spec.Scaled]; simp [hk]
    · simp only [Spec.Scaled]
      refine ⟨by simp, by simp [hk], fun ps hps => ?_⟩
      rw [hk, Option.some.injEq] at hps
      subst hps
      unfold Spec.SurfSizes at hs
      rw [hk] at hs
      have hl : (k.nCoeffs1 * k.nCoeffs2).toNat = ps.length := by
        rcases hkn : k.knots1 with _ | ks <;> rcases hkn2 : k.knots2 with _ | ks <;> rw [hkn, hkn2] at hs <;>
          simp only at hs
        have := hs.2.2.2.2.2.2
        rw [ctrlArray_length] at this
        generalize k.nCoeffs1 * k.nCoeffs2 = q at *
        split at this <;> push_cast at this <;> omega
      obtain ⟨qs, e1, e2⟩ := scaleCoeffs_array false k.PROP3 f ps
      exact ⟨qs, by rw [hl]; exact congrArg _ e1, e2⟩
  case cylinder k => have : param = false := by simpa [Scalable] using hs
                     subst this; simp [Spec.Scaled, Spec.scaledPoint, Cylinder.rescale, mul_comm]
  case extrusion k => simp [Spec.Scaled, Extrusion.rescale, mul_comm]
  case inst k => have : param = false := by simpa [Scalable] using hs
                 subst this; simp [Spec.Scaled, Spec.scaledPoint, SubInstance.rescale, mul_comm]
  case vertices vs =>
    have : param = false := by simpa [Scalable] using hs
    subst this
    simp only [Spec.Scaled]
    induction vs with
    | nil => exact .nil
    | cons a l ih => exact .cons (by simp [Spec.scaledPoint, mul_comm]) (ih hs)
  case onSurface b => rfl
  case links t => rfl

/-! ### The loop over the parents -/

theorem PartOf.snoc {h : Heap} {i a p : Nat} (ha : Spec.PartOf h i a) (hp : p ∈ (h a).users)
    (hn : ∀ b, (h p).data ≠ .onSurface b) : Spec.PartOf h i p := by
  induction ha with
  | self j => exact .up hp hn (.self p)
  | up h1 h2 _ ih => exact .up h1 h2 (ih hp)

/-- If the loop over the parents reports a parameter curve, the entity is one. -/
theorem paramCurve_sound (h : Heap) (hsym : ∀ c b, (h c).data = .onSurface (some b) → c ∈ (h b).users) (i fuel : Nat)
    (eps : List Nat) (last : Nat) (heps : ∀ a ∈ eps, Spec.PartOf h i a) (hlast : Spec.PartOf h i last)
    (hr : paramCurve h fuel eps (h last).users.head? = some true) : Spec.OnParamPlane h i := by
  induction fuel generalizing eps last with
  | zero => cases hr
  | succ n ih =>
    cases he : (h last).users.head? with
    | none => rw [he] at hr; cases hr
    | some e =>
      rw [he] at hr
      have hmem : e ∈ (h last).users := List.mem_of_head? he
      by_cases hd : ∃ b, (h e).data = .onSurface b
      · obtain ⟨b, hb⟩ := hd
        rw [paramCurve_found h n eps e b hb] at hr
        cases b with
        | none => cases hr
        | some b =>
          simp only [Option.elim, Option.some.injEq, List.contains_iff_mem] at hr
          exact ⟨b, e, heps b hr, hsym e b hb, hb⟩
      · have hd' : ∀ b, (h e).data ≠ .onSurface b := fun b hb => hd ⟨b, hb⟩
        rw [paramCurve_up h n eps e hd'] at hr
        have hpe := PartOf.snoc hlast hmem hd'
        refine ih (eps ++ [e]) e ?_ hpe hr
        intro a ha
        rcases List.mem_append.mp ha with ha | ha
        · exact heps a ha
        · rw [List.mem_singleton.mp ha]; exact hpe

theorem head_of_single {l : List Nat} (h : l.length ≤ 1) {a : Nat} (ha : a ∈ l) : l.head? = some a := by
  rcases l with _ | ⟨b, _ | ⟨c, l⟩⟩
  · cases ha
  · rw [List.mem_singleton.mp ha]; rfl
  · simp at h

/-- If every entity on the way has a single user, the loop finds every parameter curve. -/
theorem paramCurve_complete (h : Heap) (i fuel : Nat) (eps : List Nat) (b : Bool)
    (hone : ∀ j, Spec.PartOf h i j → (h j).users.length ≤ 1) (hi : i ∈ eps)
    (hpl : Spec.OnParamPlane h i) (hr : paramCurve h fuel eps (h i).users.head? = some b) : b = true := by
  obtain ⟨a, c, ha, hc, hd⟩ := hpl
  induction ha generalizing eps fuel with
  | self j =>
    cases fuel with
    | zero => cases hr
    | succ n =>
      rw [head_of_single (hone j (.self j)) hc, paramCurve_found h n eps c _ hd] at hr
      simp only [Option.elim, Option.some.injEq] at hr
      rw [← hr]
      simpa using hi
  | up h1 h2 h3 ih =>
    rename_i j p a
    cases fuel with
    | zero => cases hr
    | succ n =>
      rw [head_of_single (hone j (.self j)) h1, paramCurve_up h n eps p h2] at hr
      exact ih n (eps ++ [p]) (fun k hk => hone k (.up h1 h2 hk)) (by simp) hr hc hd

theorem paramCurve_ends (h : Heap) (rank : Nat → Nat) (hrank : ∀ j k, k ∈ (h j).users → rank k < rank j) (fuel : Nat)
    (eps : List Nat) (i : Nat) (hf : rank i < fuel) : ∃ b, paramCurve h fuel eps (h i).users.head? = some b := by
  induction fuel generalizing eps i with
  | zero => omega
  | succ n ih =>
    cases he : (h i).users.head? with
    | none => exact ⟨false, rfl⟩
    | some e =>
      by_cases hd : ∃ b, (h e).data = .onSurface b
      · obtain ⟨b, hb⟩ := hd
        exact ⟨_, paramCurve_found h n eps e b hb⟩
      · have hd' : ∀ b, (h e).data ≠ .onSurface b := fun b hb => hd ⟨b, hb⟩
        rw [paramCurve_up h n eps e hd']
        have := hrank i e (List.mem_of_head? he)
        exact ih _ e (by omega)

/-! ### Units -/

def unitTable : List (Int × ℚ) :=
  [(1, 254 / 10), (2, 1), (4, 3048 / 10), (5, 1609344), (6, 1000), (7, 1000000), (8, 254 / 10000), (9, 1 / 1000), (10, 10),
   (11, 254 / 10000000)]

theorem unitLength_table {u : Int} {a : ℚ} (h : Spec.unitLength u = some a) : (u, a) ∈ unitTable := by
  unfold Spec.unitLength at h
  split at h <;> first | (cases h; done) | (cases h; simp [unitTable])

theorem unitLength_facts {u : Int} {a : ℚ} (h : Spec.unitLength u = some a) : unitMM u = a ∧ 0 < a ∧ u ≠ 3 := by
  have key : ∀ p ∈ unitTable, unitMM p.1 = p.2 ∧ 0 < p.2 ∧ p.1 ≠ 3 := by decide +kernel
  exact key _ (unitLength_table h)

theorem unit_ratio {u v : Int} {a b : ℚ} (hu : Spec.unitLength u = some a) (hv : Spec.unitLength v = some b) (hne : u ≠ v) :
    ¬ (a / b > 9999998 / 10000000 ∧ a / b < 1000001 / 1000000) := by
  have key : ∀ p ∈ unitTable, ∀ q ∈ unitTable, p.1 ≠ q.1 →
      ¬ (p.2 / q.2 > 9999998 / 10000000 ∧ p.2 / q.2 < 1000001 / 1000000) := by decide +kernel
  exact key _ (unitLength_table hu) _ (unitLength_table hv) hne

theorem convert_eq (fuel : Nat) (m : ScaleModel) (v : Int) {a b : ℚ} (hu : Spec.unitLength m.globals.unitsFlag = some a)
    (hv : Spec.unitLength v = some b) (hne : m.globals.unitsFlag ≠ v) :
    ConvertUnits fuel m v = match rescaleAll fuel (a / b) m.heap m.entities with
      | none => none
      | some (false, h) => some (false, ⟨{ m.globals with minResolution := m.globals.minResolution * (a / b) }, h, m.entities⟩)
      | some (true, h) => some (true, ⟨{ m.globals with minResolution := m.globals.minResolution * (a / b), unitsFlag := v },
          h, m.entities⟩) := by
  obtain ⟨u1, _, u3⟩ := unitLength_facts hu
  obtain ⟨v1, _, v3⟩ := unitLength_facts hv
  rw [ConvertUnits, if_neg hne, if_neg u3, if_neg v3]
  simp only
  rw [u1, v1, if_neg (unit_ratio hu hv hne)]
  cases rescaleAll fuel (a / b) m.heap m.entities with
  | none => rfl
  | some x => obtain ⟨ok, h⟩ := x; cases ok <;> rfl

/-! ### C17 -/

/-- C17: converting to the current unit changes nothing. -/
theorem C17_same_unit (fuel : Nat) (m : ScaleModel) : ConvertUnits fuel m m.globals.unitsFlag = some (true, m) := by
  simp [ConvertUnits]

/-- C17: a conversion from or to the user defined unit is refused and changes nothing. -/
theorem C17_extern_refused (fuel : Nat) (m : ScaleModel) (v : Int) (h : m.globals.unitsFlag = 3 ∨ v = 3)
    (hne : m.globals.unitsFlag ≠ v) : ConvertUnits fuel m v = some (false, m) := by
  rw [ConvertUnits, if_neg hne]
  rcases h with h | h
  · rw [if_pos h]
  · simp [h]

/-- The models C17 is proved for: no entity is listed twice; a curve on a surface is registered as a user of
its parameter curve; using is acyclic; a NURBS curve and the entities it is part of have one user at most;
and every entity can be scaled by the code. -/
structure Sound (m : ScaleModel) : Prop where
  nodup : m.entities.Nodup
  sym : ∀ c b, (m.heap c).data = .onSurface (some b) → c ∈ (m.heap b).users
  acyclic : ∃ rank : Nat → Nat, ∀ j k, k ∈ (m.heap j).users → rank k < rank j
  single : ∀ i ∈ m.entities, (∃ d, (m.heap i).data = .curve d) → ∀ j, Spec.PartOf m.heap i j → (m.heap j).users.length ≤ 1
  scalable : ∀ i ∈ m.entities, Scalable (Spec.OnParamPlane m.heap i) (m.heap i).data

/-- The entities of a model before and after a scaling by `f`: each listed entity scaled, the users kept,
all others unchanged. -/
def AllScaled (f : ℚ) (m m' : ScaleModel) : Prop :=
  m'.entities = m.entities ∧ (∀ i, (m'.heap i).users = (m.heap i).users) ∧ (∀ i ∉ m.entities, m'.heap i = m.heap i) ∧
    ∀ i ∈ m.entities, ∃ p : Bool, (p = true ↔ Spec.OnParamPlane m.heap i) ∧ Spec.Scaled p f (m.heap i).data (m'.heap i).data

theorem rescale_indep {d : EntData} (hc : ¬ ∃ k, d = .curve k) (p q : Bool) (f : ℚ) : d.rescale p f = d.rescale q f := by
  cases d <;> first | rfl | exact absurd ⟨_, rfl⟩ hc

theorem rescale_some {d : EntData} (P : Prop) (hs : Scalable P d) (p : Bool) (f : ℚ) : ∃ d', d.rescale p f = some d' := by
  cases d <;> first | exact ⟨_, rfl⟩ | exact hs.elim

theorem paramOf_ends {m : ScaleModel} (rank : Nat → Nat) (hrank : ∀ j k, k ∈ (m.heap j).users → rank k < rank j) {fuel : Nat}
    (hf : ∀ i ∈ m.entities, rank i < fuel) {i : Nat} (hi : i ∈ m.entities) : ∃ b, paramOf m.heap fuel i = some b := by
  by_cases hc : ∃ k, (m.heap i).data = .curve k
  · rw [paramOf_curve _ _ _ hc]
    exact paramCurve_ends m.heap rank hrank fuel [i] i (hf i hi)
  · exact ⟨false, paramOf_other _ _ _ hc⟩

theorem rescaleAll_sound {m : ScaleModel} (hm : Sound m) {f : ℚ} (hf : f ≠ 0) :
    ∃ n, ∀ fuel ≥ n, ∃ h', rescaleAll fuel f m.heap m.entities = some (true, h') ∧
      ∀ g, AllScaled f m ⟨g, h', m.entities⟩ := by
  obtain ⟨rank, hrank⟩ := hm.acyclic
  refine ⟨(m.entities.map rank).sum + 1, fun fuel hfuel => ?_⟩
  have hbound : ∀ i ∈ m.entities, rank i < fuel := by
    intro i hi
    have := List.single_le_sum (l := m.entities.map rank) (by simp) (rank i) (List.mem_map_of_mem hi)
    omega
  classical
  have hstep : ∀ i, ∃ p d, i ∈ m.entities → paramOf m.heap fuel i = some p ∧ (m.heap i).data.rescale p f = some d := by
    intro i
    by_cases hi : i ∈ m.entities
    swap
    · exact ⟨true, .null, fun h => absurd h hi⟩
    obtain ⟨p, hp⟩ := paramOf_ends rank hrank hbound hi
    obtain ⟨d, hd⟩ := rescale_some _ (hm.scalable i hi) p f
    exact ⟨p, d, fun _ => ⟨hp, hd⟩⟩
  choose P D hPD using hstep
  have hP := fun i hi => (hPD i hi).1
  have hD := fun i hi => (hPD i hi).2
  refine ⟨fun i => if i ∈ m.entities then { m.heap i with data := D i } else m.heap i, ?_, fun g => ⟨rfl, ?_, ?_, ?_⟩⟩
  · refine (rescaleAll_iff _ _ _ _ _ hm.nodup).mpr ⟨fun i hi => ⟨P i, D i, hP i hi, hD i hi, by simp [hi]⟩, fun i hi => by simp [hi]⟩
  · intro i
    by_cases hi : i ∈ m.entities <;> simp [hi]
  · intro i hi; simp [hi]
  · intro i hi
    simp only [hi, if_true]
    by_cases hc : ∃ k, (m.heap i).data = .curve k
    · refine ⟨P i, ?_, ?_⟩
      · have hp := hP i hi
        rw [paramOf_curve _ _ _ hc] at hp
        constructor
        · intro ht
          rw [ht] at hp
          exact paramCurve_sound m.heap hm.sym i fuel [i] i (by simp [Spec.PartOf.self]) (.self i) hp
        · intro hpl
          exact paramCurve_complete m.heap i fuel [i] (P i) (hm.single i hi hc) (by simp) hpl hp
      · refine scaled_of_rescale hf ?_ (hD i hi)
        have := hm.scalable i hi
        obtain ⟨k, hk⟩ := hc
        rw [hk] at this ⊢
        exact this
    · refine ⟨decide (Spec.OnParamPlane m.heap i), by simp, scaled_of_rescale hf ?_ ?_⟩
      · have := hm.scalable i hi
        simpa using this
      · rw [rescale_indep hc _ (P i)]; exact hD i hi

/-- C17: converting a sound model multiplies every length, and the minimum resolution, by the ratio of the
units, and leaves everything else. Partial: the models are restricted to `Sound`; the theorems below show that
the restrictions on entities are needed. Lengths in the global section (largest coordinate, line width) are not
converted (`C17_global_lengths_kept`). -/
theorem C17_convert_partial (m : ScaleModel) (hm : Sound m) (v : Int) (a b : ℚ)
    (hu : Spec.unitLength m.globals.unitsFlag = some a) (hv : Spec.unitLength v = some b) (hne : m.globals.unitsFlag ≠ v) :
    ∃ n, ∀ fuel ≥ n, ∃ m', ConvertUnits fuel m v = some (true, m') ∧ AllScaled (a / b) m m' ∧
      m'.globals = { m.globals with unitsFlag := v, minResolution := m.globals.minResolution * (a / b) } := by
  have hf : a / b ≠ 0 := div_ne_zero (ne_of_gt (unitLength_facts hu).2.1) (ne_of_gt (unitLength_facts hv).2.1)
  obtain ⟨n, hn⟩ := rescaleAll_sound hm hf
  refine ⟨n, fun fuel hfuel => ?_⟩
  obtain ⟨h', h1, h2⟩ := hn fuel hfuel
  refine ⟨_, ?_, h2 _, rfl⟩
  rw [convert_eq fuel m v hu hv hne, h1]

/-- C17: two conversions in a row have the effect of one. This holds for every model without repeated
entities. -/
theorem C17_compose (fuel : Nat) (m m1 m2 : ScaleModel) (hn : m.entities.Nodup) (v w : Int) (a b c : ℚ)
    (hu : Spec.unitLength m.globals.unitsFlag = some a) (hv : Spec.unitLength v = some b) (hw : Spec.unitLength w = some c)
    (h1 : ConvertUnits fuel m v = some (true, m1)) (h2 : ConvertUnits fuel m1 w = some (true, m2)) :
    ConvertUnits fuel m w = some (true, m2) := by
  by_cases huv : m.globals.unitsFlag = v
  · rw [← huv, C17_same_unit] at h1
    cases h1
    exact h2
  · have hb := (unitLength_facts hv).2.1
    have hc := (unitLength_facts hw).2.1
    rw [convert_eq fuel m v hu hv huv] at h1
    cases r1 : rescaleAll fuel (a / b) m.heap m.entities with
    | none => rw [r1] at h1; cases h1
    | some x =>
      obtain ⟨ok, x⟩ := x
      rw [r1] at h1
      cases ok with
      | false => cases h1
      | true =>
        cases h1
        by_cases hvw : v = w
        · subst hvw
          rw [show ConvertUnits fuel _ v = _ from C17_same_unit fuel _] at h2
          cases h2
          rw [convert_eq fuel m v hu hv huv, r1]
        · rw [convert_eq fuel _ w (a := b) hv hw hvw] at h2
          simp only at h2
          cases r2 : rescaleAll fuel (b / c) x m.entities with
          | none => rw [r2] at h2; cases h2
          | some y =>
            obtain ⟨ok, y⟩ := y
            rw [r2] at h2
            cases ok with
            | false => cases h2
            | true =>
              cases h2
              have r3 := rescaleAll_comp hn r1 r2
              have hfac : a / b * (b / c) = a / c := by field_simp
              rw [hfac] at r3
              by_cases huw : m.globals.unitsFlag = w
              · subst huw
                rw [hu] at hw
                cases hw
                rw [div_self (ne_of_gt hc)] at r3
                have hx := rescaleAll_one hn r3
                rw [C17_same_unit, hx, mul_assoc, hfac, div_self (ne_of_gt hc), mul_one]
              · rw [convert_eq fuel m w hu hw huw, r3, mul_assoc, hfac]

/-- The lengths stored in the global section other than the resolution are not converted. -/
theorem C17_global_lengths_kept (fuel : Nat) (m m' : ScaleModel) (v : Int) (ok : Bool)
    (h : ConvertUnits fuel m v = some (ok, m')) :
    m'.globals.maxCoordinateValue = m.globals.maxCoordinateValue ∧ m'.globals.maxLinewidth = m.globals.maxLinewidth := by
  unfold ConvertUnits at h
  split at h
  · cases h; exact ⟨rfl, rfl⟩
  · split at h
    · cases h; exact ⟨rfl, rfl⟩
    · split at h
      · cases h; exact ⟨rfl, rfl⟩
      · simp only at h
        split at h
        · cases h; exact ⟨rfl, rfl⟩
        · split at h
          · cases h
          · cases h; exact ⟨rfl, rfl⟩
          · cases h; exact ⟨rfl, rfl⟩

theorem rescaleAll_append (fuel : Nat) (f : ℚ) (h h1 : Heap) (xs ys : List Nat)
    (hx : rescaleAll fuel f h xs = some (true, h1)) : rescaleAll fuel f h (xs ++ ys) = rescaleAll fuel f h1 ys := by
  induction xs generalizing h with
  | nil => cases hx; rfl
  | cons a l ih =>
    rw [rescaleAll] at hx
    rw [List.cons_append, rescaleAll]
    cases hr : rescaleAt fuel f h a with
    | none => rw [hr] at hx; cases hx
    | some x =>
      obtain ⟨ok, x⟩ := x
      rw [hr] at hx
      cases ok with
      | false => cases hx
      | true => exact ih x hx

/-- C17 fails with an unsupported entity in the model: the conversion stops there, reports failure and keeps the
unit, but the entities before it and the resolution have been scaled already. -/
theorem C17_null_entity_half_converted (fuel : Nat) (g : Globals) (h : Heap) (xs ys : List Nat) (n : Nat) (v : Int) (a b : ℚ)
    (m1 : ScaleModel) (hok : ConvertUnits fuel ⟨g, h, xs⟩ v = some (true, m1)) (hx : n ∉ xs) (hnd : xs.Nodup)
    (hnull : (h n).data = .null)
    (hu : Spec.unitLength g.unitsFlag = some a) (hv : Spec.unitLength v = some b) (hne : g.unitsFlag ≠ v) :
    ConvertUnits fuel ⟨g, h, xs ++ n :: ys⟩ v =
      some (false, ⟨{ g with minResolution := g.minResolution * (a / b) }, m1.heap, xs ++ n :: ys⟩) := by
  rw [convert_eq fuel ⟨g, h, xs⟩ v hu hv hne] at hok
  rw [convert_eq fuel ⟨g, h, xs ++ n :: ys⟩ v hu hv hne]
  simp only at hok ⊢
  cases r : rescaleAll fuel (a / b) h xs with
  | none => rw [r] at hok; cases hok
  | some x =>
    obtain ⟨ok, x⟩ := x
    rw [r] at hok
    cases ok with
    | false => cases hok
    | true =>
      cases hok
      rw [rescaleAll_append _ _ _ _ _ _ r]
      have hxn : x n = h n := ((rescaleAll_iff _ _ _ _ _ hnd).mp r).2 n hx
      have hnull' : (x n).data = .null := by rw [hxn, hnull]
      have e : rescaleAt fuel (a / b) x n = some (false, x) := by
        rw [rescaleAt_eq, paramOf, hnull']
        rfl
      rw [rescaleAll, e]


/-- C17 fails on parameter planes: only NURBS curves are recognised there. A line that is part of the parameter
curve of a curve on a surface gets its parameter values scaled like lengths. -/
theorem C17_line_on_param_plane_scaled (fuel : Nat) (m m' : ScaleModel) (hn : m.entities.Nodup) (v : Int) (a b : ℚ)
    (hu : Spec.unitLength m.globals.unitsFlag = some a) (hv : Spec.unitLength v = some b) (hne : m.globals.unitsFlag ≠ v)
    (h : ConvertUnits fuel m v = some (true, m')) (i : Nat) (hi : i ∈ m.entities) (l : Line) (hl : (m.heap i).data = .line l)
    (hx : l.X1 ≠ 0) : ¬ Spec.Scaled true (a / b) (m.heap i).data (m'.heap i).data := by
  rw [convert_eq fuel m v hu hv hne] at h
  cases r : rescaleAll fuel (a / b) m.heap m.entities with
  | none => rw [r] at h; cases h
  | some x =>
    obtain ⟨ok, x⟩ := x
    rw [r] at h
    cases ok with
    | false => cases h
    | true =>
      cases h
      obtain ⟨p, d, _, e2, e3⟩ := ((rescaleAll_iff _ _ _ _ _ hn).mp r).1 i hi
      simp only
      rw [e3, hl]
      rw [hl, EntData.rescale] at e2
      cases e2
      simp only [Spec.Scaled, Spec.scaledPoint, if_true, Line.rescale]
      rintro ⟨⟨⟨h1, _⟩, _⟩, _⟩
      have hab : a / b = 1 := mul_left_cancel₀ hx (by rw [h1, mul_one])
      exact unit_ratio hu hv hne (by rw [hab]; norm_num)

/-- A heap of three entities: the NURBS curve `0` is the parameter curve of the curve on a surface `1`, but its
first user is the composite curve `2`. -/
def exShared : Heap
  | 0 => ⟨.curve { exCurve with }, [2, 1]⟩
  | 1 => ⟨.onSurface (some 0), []⟩
  | _ => ⟨.links 102, []⟩

/-- C17 fails for shared curves: a NURBS curve on a parameter plane is scaled like one in space if its first
user leads elsewhere. -/
theorem C17_shared_curve_scaled : ∃ (m : ScaleModel) (v : Int), Spec.OnParamPlane m.heap 0 ∧
    ∃ m', ConvertUnits 9 m v = some (true, m') ∧ ¬ Spec.Scaled true (254 / 10) (m.heap 0).data (m'.heap 0).data := by
  refine ⟨⟨{ initGlobals with unitsFlag := 1 }, exShared, [0, 1]⟩, 2, ⟨0, 1, .self 0, by simp [exShared], rfl⟩, _,
    (convert_eq 9 _ 2 rfl rfl (by decide)).trans rfl, ?_⟩
  rintro ⟨-, -, h⟩
  obtain ⟨qs, h1, h2⟩ := h [(⟨1, 0, 0⟩, 1), (⟨1, 1, 0⟩, 7071 / 10000), (⟨0, 1, 0⟩, 1)] rfl
  rcases qs with _ | ⟨q, qs⟩
  · cases h2
  · obtain ⟨⟨h3, _⟩, _⟩ := List.forall₂_cons.mp h2
    have e : q.1.x = 254 / 10 := by
      have h1' := congrArg (fun o => (o.getD []).head?) h1
      simp only [Spec.ctrlArray, List.flatMap_cons, exCurve] at h1'
      have := Option.some.inj h1'
      simpa using this.symm
    simp only [Spec.scaledPoint, if_true] at h3
    rw [e] at h3
    have := h3.1.1
    norm_num at this

/-- C17 fails for conics: the circle `x^2 + y^2 = 1` converted from inches to millimetres is not the scaled
circle (see C39 for the exact error). -/
theorem C17_circle_not_scaled : ∃ m', ConvertUnits 9 ⟨{ initGlobals with unitsFlag := 1 },
      fun _ => ⟨.conic ⟨1, 0, 1, 0, 0, -1, 0, 1, 0, 0, 1⟩, []⟩, [0]⟩ 2 = some (true, m') ∧
    ¬ Spec.Scaled false (254 / 10) (.conic ⟨1, 0, 1, 0, 0, -1, 0, 1, 0, 0, 1⟩) (m'.heap 0).data := by
  refine ⟨_, (convert_eq 9 _ 2 rfl rfl (by decide)).trans rfl, ?_⟩
  rintro ⟨-, -, h⟩
  have h1 := (h ⟨1, 0, 0⟩ ⟨254 / 10, 0, 0⟩ (by simp [Spec.scaledPoint])).mpr (by norm_num [Spec.conicAt])
  revert h1
  decide +kernel

/-- C17: if the first users of a NURBS curve lead round in a circle without meeting a curve on a surface, the
conversion never returns. -/
theorem C17_user_cycle_never_returns (fuel : Nat) (g : Globals) (h : Heap) (i : Nat) (is : List Nat) (v : Int) (a b : ℚ) (d : Nurbs)
    (S : Nat → Prop) (hi : S i) (hS : ∀ j, S j → ∃ k l, (h j).users = k :: l ∧ S k ∧ ∀ x, (h k).data ≠ .onSurface x)
    (hd : (h i).data = .curve d)
    (hu : Spec.unitLength g.unitsFlag = some a) (hv : Spec.unitLength v = some b) (hne : g.unitsFlag ≠ v) :
    ConvertUnits fuel ⟨g, h, i :: is⟩ v = none := by
  have key : ∀ n eps j, S j → paramCurve h n eps (h j).users.head? = none := by
    intro n
    induction n with
    | zero => intros; rfl
    | succ n ih =>
      intro eps j hj
      obtain ⟨k, l, h1, h2, h3⟩ := hS j hj
      rw [h1, List.head?_cons, paramCurve_up h n eps k h3]
      exact ih _ k h2
  rw [convert_eq fuel ⟨g, h, i :: is⟩ v hu hv hne]
  simp only
  have e : rescaleAt fuel (a / b) h i = none := by
    rw [rescaleAt_eq, paramOf_curve h fuel i ⟨d, hd⟩, key fuel [i] i hi]
  rw [rescaleAll, e]

/-! ### C18 -/

theorem scale_eq (fuel : Nat) (m : ScaleModel) (s : ℚ) (h1 : 6 / 10 ^ 8 ≤ s) (h2 : s ≤ 17000000) :
    ChangeModelScale fuel m s = match rescaleAll fuel (s / m.globals.modelScale) m.heap m.entities with
      | none => none
      | some (b, h) => some (b, ⟨{ m.globals with minResolution := m.globals.minResolution * s, modelScale := s }, h, m.entities⟩) := by
  rw [ChangeModelScale, if_neg (not_lt.mpr h1), if_neg (not_lt.mpr h2)]
  simp only
  cases rescaleAll fuel (s / m.globals.modelScale) m.heap m.entities with
  | none => rfl
  | some x => rfl

/-- C18: scales out of range are refused and change nothing. -/
theorem C18_out_of_range (fuel : Nat) (m : ScaleModel) (s : ℚ) (h : s < 6 / 10 ^ 8 ∨ 17000000 < s) :
    ChangeModelScale fuel m s = some (false, m) := by
  rw [ChangeModelScale]
  split
  · rfl
  · rename_i hn; rw [if_pos (h.resolve_left hn)]

/-- C18, exactly what happens: lengths are multiplied by the ratio of the new to the old scale, the minimum
resolution by the new scale. -/
theorem C18_effect (m : ScaleModel) (hm : Sound m) (s : ℚ) (h1 : 6 / 10 ^ 8 ≤ s) (h2 : s ≤ 17000000)
    (h0 : m.globals.modelScale ≠ 0) :
    ∃ n, ∀ fuel ≥ n, ∃ m', ChangeModelScale fuel m s = some (true, m') ∧ AllScaled (s / m.globals.modelScale) m m' ∧
      m'.globals = { m.globals with modelScale := s, minResolution := m.globals.minResolution * s } := by
  have hs : s ≠ 0 := by intro e; rw [e] at h1; norm_num at h1
  obtain ⟨n, hn⟩ := rescaleAll_sound hm (div_ne_zero hs h0)
  refine ⟨n, fun fuel hf => ?_⟩
  obtain ⟨h', e1, e2⟩ := hn fuel hf
  refine ⟨_, ?_, e2 _, rfl⟩
  rw [scale_eq fuel m s h1 h2, e1]

/-- C18 holds if the scale was one: lengths and resolution are multiplied by the same factor. Partial: only from
scale one (`C18_resolution_wrong`), and for sound models. -/
theorem C18_scale_partial (m : ScaleModel) (hm : Sound m) (s : ℚ) (h1 : 6 / 10 ^ 8 ≤ s) (h2 : s ≤ 17000000)
    (h0 : m.globals.modelScale = 1) :
    ∃ n, ∀ fuel ≥ n, ∃ m' f, ChangeModelScale fuel m s = some (true, m') ∧ AllScaled f m m' ∧
      m'.globals.minResolution = m.globals.minResolution * f ∧ m'.globals.modelScale = m.globals.modelScale * f := by
  obtain ⟨n, hn⟩ := C18_effect m hm s h1 h2 (by rw [h0]; norm_num)
  refine ⟨n, fun fuel hf => ?_⟩
  obtain ⟨m', e1, e2, e3⟩ := hn fuel hf
  rw [h0, div_one] at e2
  exact ⟨m', s, e1, e2, by rw [e3], by rw [e3, h0]; simp⟩

/-- C18 fails otherwise: from any other scale the resolution is multiplied by a factor that differs from the
ratio of the scales. -/
theorem C18_resolution_wrong (fuel : Nat) (m m' : ScaleModel) (s : ℚ) (h1 : 6 / 10 ^ 8 ≤ s) (h2 : s ≤ 17000000)
    (h0 : m.globals.modelScale ≠ 0) (hne : m.globals.modelScale ≠ 1) (hr : m.globals.minResolution ≠ 0)
    (h : ChangeModelScale fuel m s = some (true, m')) :
    m'.globals.minResolution ≠ m.globals.minResolution * (m'.globals.modelScale / m.globals.modelScale) := by
  have hs : s ≠ 0 := by intro e; rw [e] at h1; norm_num at h1
  rw [scale_eq fuel m s h1 h2] at h
  cases r : rescaleAll fuel (s / m.globals.modelScale) m.heap m.entities with
  | none => rw [r] at h; cases h
  | some x =>
    obtain ⟨ok, x⟩ := x
    rw [r] at h
    cases h
    simp only
    intro e
    have e1 := mul_left_cancel₀ hr e
    rw [eq_div_iff h0] at e1
    exact hne (mul_left_cancel₀ hs (by rw [e1, mul_one]))

/-- C17 for imported files: the scaling at the end of `Read` treats the entities of a sound model in the same way,
with the factor computed from the global section (C19). -/
theorem C17_import_scaled_partial (m : ScaleModel) (hm : Sound m) (f : ℚ) (hf : f ≠ 0) :
    ∃ n, ∀ fuel ≥ n, ∃ h', importScale fuel f m.heap m.entities = some h' ∧ AllScaled f m ⟨m.globals, h', m.entities⟩ := by
  obtain ⟨n, hn⟩ := rescaleAll_sound hm hf
  refine ⟨n, fun fuel hfuel => ?_⟩
  obtain ⟨h', h1, h2⟩ := hn fuel hfuel
  refine ⟨h', ?_, h2 _⟩
  have key : ∀ (is : List Nat) (h : Heap), rescaleAll fuel f h is = some (true, h') → importScale fuel f h is = some h' := by
    intro is
    induction is with
    | nil => intro h e; cases e; rfl
    | cons a l ih =>
      intro h e
      rw [rescaleAll] at e
      rw [importScale]
      cases hr : rescaleAt fuel f h a with
      | none => rw [hr] at e; cases e
      | some x =>
        obtain ⟨ok, x⟩ := x
        rw [hr] at e
        cases ok with
        | false => cases e
        | true => exact ih x e
  exact key _ _ h1

/-! ### The conditions are met -/

/-- A line, a NURBS curve in space and one on a parameter plane inside a composite curve. -/
def exHeap : Heap
  | 0 => ⟨.line ⟨1, 2, 3, 4, 5, 6⟩, []⟩
  | 1 => ⟨.curve exCurve, []⟩
  | 2 => ⟨.curve exCurve, [3]⟩
  | 3 => ⟨.links 102, [4]⟩
  | 4 => ⟨.onSurface (some 3), []⟩
  | _ => ⟨.links 102, []⟩

def exModel : ScaleModel := ⟨{ initGlobals with unitsFlag := 1 }, exHeap, [0, 1, 2, 3, 4]⟩

theorem exModel_sound : Sound exModel where
  nodup := by decide
  sym := by
    intro c b h
    rcases c with _ | _ | _ | _ | _ | c <;> simp [exModel, exHeap] at h
    subst h
    simp [exModel, exHeap]
  acyclic := ⟨fun j => 9 - j, by
    intro j k h
    rcases j with _ | _ | _ | _ | _ | j <;> simp [exModel, exHeap] at h <;> subst h <;> decide⟩
  single := by
    intro i _ _ j _
    rcases j with _ | _ | _ | _ | _ | j <;> simp [exModel, exHeap]
  scalable := by
    have hplane : ¬ Spec.OnParamPlane exHeap 0 := by
      rintro ⟨a, c, h1, h2, h3⟩
      cases h1 with
      | self => simp [exHeap] at h2
      | up h1 _ _ => simp [exHeap] at h1
    intro i hi
    simp only [exModel, List.mem_cons, List.not_mem_nil, or_false] at hi
    rcases hi with rfl | rfl | rfl | rfl | rfl
    · exact hplane
    · exact ⟨rfl, rfl, rfl, rfl⟩
    · exact ⟨rfl, rfl, rfl, rfl⟩
    · trivial
    · trivial

/-- The third entity is on a parameter plane, the second is not. -/
example : Spec.OnParamPlane exHeap 2 :=
  ⟨3, 4, .up (by simp [exHeap]) (by simp [exHeap]) (.self 3), by simp [exHeap], rfl⟩

example := C17_convert_partial exModel exModel_sound 2 _ _ rfl rfl (by decide)
example := C18_scale_partial exModel exModel_sound 10 (by norm_num) (by norm_num) rfl

example := C17_line_on_param_plane_scaled 9 ⟨{ initGlobals with unitsFlag := 1 },
  fun | 0 => ⟨.line ⟨1, 0, 0, 1, 1, 0⟩, [1]⟩ | _ => ⟨.onSurface (some 0), []⟩, [0, 1]⟩ _ (by decide) 2 _ _ rfl rfl (by decide)
  ((convert_eq 9 _ 2 rfl rfl (by decide)).trans rfl) 0 (by decide) ⟨1, 0, 0, 1, 1, 0⟩ rfl (by norm_num)

example := C17_user_cycle_never_returns 1000 { initGlobals with unitsFlag := 1 }
  (fun | 0 => ⟨.curve exCurve, [1]⟩ | 1 => ⟨.links 102, [0]⟩ | _ => ⟨.links 102, []⟩) 0 [] 2 _ _ exCurve (fun j => j ≤ 1) (by decide)
  (by
    intro j hj
    rcases j with _ | _ | j
    · exact ⟨1, [], rfl, by decide, by simp⟩
    · exact ⟨0, [], rfl, by decide, by simp⟩
    · omega)
  rfl rfl rfl (by decide)

example := C17_null_entity_half_converted 9 { initGlobals with unitsFlag := 1 }
  (fun | 0 => ⟨.line ⟨1, 0, 0, 1, 1, 0⟩, []⟩ | _ => ⟨.null, []⟩) [0] [] 1 2 _ _ _
  ((convert_eq 9 _ 2 rfl rfl (by decide)).trans rfl) (by decide) (by decide) rfl rfl rfl (by decide)

/-- Doubling the scale and then doubling it again: lengths grow by four, the resolution by eight. -/
example : ∃ m1 m2, ChangeModelScale 9 exModel 2 = some (true, m1) ∧ ChangeModelScale 9 m1 4 = some (true, m2) ∧
    m2.globals.minResolution = 8 * exModel.globals.minResolution :=
  ⟨_, _, (scale_eq 9 _ 2 (by norm_num) (by norm_num)).trans rfl, (scale_eq 9 _ 4 (by norm_num) (by norm_num)).trans rfl, by decide +kernel⟩

end Iges.Props
