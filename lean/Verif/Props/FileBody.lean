import Verif.Lemmas.File
import Verif.Props.Entities
import Verif.Props.ListEntities
import Verif.Props.Nurbs
import Verif.Props.Vertices
import Verif.Props.Comments
/-
The class data of the entities of a file: what can be written and read, and what is then found.
-/
namespace Iges.Props
open Iges Iges.File

/-- The data `b` found for the data `a` that was written with the resolution `res`: the same class, the same
integers, flags, texts and entity numbers, and reals within the written precision. -/
def BodyNear (res : ℚ) : Body → Body → Prop
  | .arc a, .arc b => ArcNear res a b
  | .composite a, .composite b => b = a
  | .conic a, .conic b => ConicNear a b
  | .line a, .line b => Spec.Near res a.X1 b.X1 ∧ Spec.Near res a.Y1 b.Y1 ∧ Spec.Near res a.Z1 b.Z1 ∧
      Spec.Near res a.X2 b.X2 ∧ Spec.Near res a.Y2 b.Y2 ∧ Spec.Near res a.Z2 b.Z2
  | .revolution a, .revolution b => RevolutionNear a b
  | .tabCyl a, .tabCyl b => TabCylNear res a b
  | .tx a, .tx b => TxNear res a b
  | .curve a, .curve b => ∃ ks ps, a.knots = some ks ∧ a.coeffs = some (Spec.ctrlArray a.PROP3 ps) ∧ CurveNear a ks ps b
  | .surf a, .surf b => ∃ ks1 ks2 ps, a.knots1 = some ks1 ∧ a.knots2 = some ks2 ∧
      a.coeffs = some (Spec.ctrlArray a.PROP3 ps) ∧ SurfNear a ks1 ks2 ps b
  | .onSurface a, .onSurface b => b = { a with PREF := if a.CPTR = 0 then 1 else if a.BPTR = 0 then 2 else a.PREF }
  | .trimmed a, .trimmed b => b = a
  | .cylinder a, .cylinder b => CylinderNear res a b
  | .extrusion a, .extrusion b => ExtrusionNear res a b
  | .solid a, .solid b => b = a
  | .subfigure a, .subfigure b => b = a
  | .colour a, .colour b => ColourNear a b
  | .name a, .name b => b = a
  | .inst a, .inst b => SubInstanceNear res a b
  | .vertices a, .vertices b => List.Forall₂ (PointNear res) a b
  | .edges a, .edges b => b = a
  | .face a, .face b => b = a
  | .shell a, .shell b => b = a
  | _, _ => False

/-- Class data that can be written and read.  `note`: the model has an application note, in which case the
reader changes the resolution before it reads the entities and arcs and cylinders are at its mercy.
Excluded because a reader refuses or loses them: boolean trees (C31), loops (C30_loop_lost), solids with voids,
trimmed surfaces without boundary, and the NULL entity, which cannot be written. -/
def BodyOk (res : ℚ) (note : Bool) (xs : List ExtraRef) : Body → Prop
  | .arc a => note = false ∧ ∃ M ≤ 10 ^ 7, (∀ x ∈ Arc.coords a, |x| ≤ M) ∧
      |Arc.endSq a - Arc.startSq a| + (32 * M * Spec.coordErr res M + 16 * Spec.coordErr res M ^ 2) ≤ 1998 / 1000 * res ∧
      1001 / 1000 * res + 14 * res ^ 2 + 1 / 10 ^ 29 < Arc.startSq a
  | .composite k => k ≠ [] ∧ ∀ n ∈ k, IsDE n
  | .conic k => ∀ x ∈ [k.A, k.B, k.C, k.D, k.E, k.F, k.ZT, k.X1, k.Y1, k.X2, k.Y2], |x| ≤ 10 ^ (300 : ℤ)
  | .line l => ∀ x ∈ [l.X1, l.Y1, l.Z1, l.X2, l.Y2, l.Z2], |x| ≤ 10 ^ (300 : ℤ)
  | .revolution k => (1 ≤ k.L ∧ k.L ≤ 9999997) ∧ (1 ≤ k.C ∧ k.C ≤ 9999997) ∧ ∀ x ∈ [k.SA, k.TA], |x| ≤ 10 ^ (300 : ℤ)
  | .tabCyl k => goodDE k.DE ∧ ∀ x ∈ [k.LX, k.LY, k.LZ], |x| ≤ 10 ^ (300 : ℤ)
  | .tx t => ∀ x ∈ [t.R.v00, t.R.v01, t.R.v02, t.T.x, t.R.v10, t.R.v11, t.R.v12, t.T.y, t.R.v20, t.R.v21, t.R.v22, t.T.z],
      |x| ≤ 10 ^ (300 : ℤ)
  | .curve d => ∃ ks ps, GoodCurve d ks ps ∧ (d.PROP3 = 0 → ∀ p ∈ ps, 1 / 10 ^ 8 ≤ p.2) ∧
      (d.PROP1 = 1 → |d.vnorm.x * d.vnorm.x + d.vnorm.y * d.vnorm.y + d.vnorm.z * d.vnorm.z - 1| ≤ 1 / 10 ^ 8)
  | .surf d => ∃ ks1 ks2 ps, GoodSurf d ks1 ks2 ps ∧ (d.PROP3 = 0 → ∀ p ∈ ps, 1 / 10 ^ 8 ≤ p.2)
  | .onSurface k => IsDE k.SPTR ∧ (k.BPTR = 0 ∨ IsDE k.BPTR) ∧ (k.CPTR = 0 ∨ IsDE k.CPTR) ∧
      ¬ (k.BPTR = 0 ∧ k.CPTR = 0) ∧ (0 ≤ k.CRTN ∧ k.CRTN ≤ 3) ∧ (0 ≤ k.PREF ∧ k.PREF ≤ 3)
  | .trimmed k => IsDE k.PTS ∧ (k.N1 = 0 ∨ k.N1 = 1) ∧ IsDE k.PTO ∧ ∀ n ∈ k.PTI, IsDE n
  | .cylinder k => note = false ∧ res ≤ 10 ∧ (1 / 10 ^ 8 ≤ k.H ∧ 2002 / 1000 * res ≤ k.H) ∧
      (1 / 10 ^ 8 ≤ k.R ∧ 2002 / 1000 * res ≤ k.R) ∧ |k.I1 * k.I1 + k.J1 * k.J1 + k.K1 * k.K1 - 1| ≤ 1 / 10 ^ 8 ∧
      ∀ x ∈ [k.H, k.R, k.X1, k.Y1, k.Z1], |x| ≤ 10 ^ (300 : ℤ)
  | .extrusion k => res ≤ 10 ∧ goodDE k.PTR ∧ |k.I1 * k.I1 + k.J1 * k.J1 + k.K1 * k.K1 - 1| ≤ 1 / 10 ^ 8 ∧
      |k.L| ≤ 10 ^ (300 : ℤ)
  | .solid k => IsDE k.shell ∧ k.voids = []
  | .subfigure k => (0 ≤ k.depth ∧ k.depth ≤ 2147483647) ∧ '\n' ∉ k.name ∧ k.DE ≠ [] ∧ ∀ n ∈ k.DE, IsDE n
  | .colour k => Percent k.red ∧ Percent k.green ∧ Percent k.blue ∧ ('\n' ∉ k.cname ∧ k.cname.length ≤ 60) ∧
      (k.cname = [] → xs = [])
  | .name k => '\n' ∉ k
  | .inst k => goodDE k.DE ∧ ∀ x ∈ [k.X, k.Y, k.Z, k.S], |x| ≤ 10 ^ (300 : ℤ)
  | .vertices k => k ≠ [] ∧ ∀ p ∈ k, |p.x| ≤ 10 ^ (300 : ℤ) ∧ |p.y| ≤ 10 ^ (300 : ℤ) ∧ |p.z| ≤ 10 ^ (300 : ℤ)
  | .edges k => k ≠ [] ∧ (∀ e ∈ k, IsDE e.curv ∧ IsDE e.svp ∧ IsDE e.tvp) ∧
      ∀ e ∈ k, (1 ≤ e.sv ∧ e.sv ≤ 2147483647) ∧ (1 ≤ e.tv ∧ e.tv ≤ 2147483647)
  | .face k => IsDE k.surf ∧ k.loops ≠ [] ∧ ∀ n ∈ k.loops, IsDE n
  | .shell k => k ≠ [] ∧ ∀ f ∈ k, IsDE f.1
  | .tree _ => False
  | .loop _ => False
  | .null _ => False

/-- An upper bound for the parameter lines of the class data. -/
def bodyLines : Body → Nat
  | .arc _ => 14
  | .composite k => 2 * k.length
  | .conic _ => 22
  | .line _ => 12
  | .revolution _ => 4
  | .tabCyl _ => 6
  | .tx _ => 24
  | .curve d => 2 * ((d.knots.getD []).length + 4 * (d.coeffs.getD []).length + 5)
  | .surf d => 2 * ((d.knots1.getD []).length + (d.knots2.getD []).length + 4 * (d.coeffs.getD []).length + 4)
  | .onSurface _ => 2
  | .trimmed k => 2 * (k.PTI.length + 1)
  | .cylinder _ => 16
  | .extrusion _ => 10
  | .solid _ => 2
  | .subfigure k => hCost k.name + 2 * k.DE.length + 2
  | .colour _ => 8
  | .name k => hCost k
  | .inst _ => 8
  | .vertices k => 6 * k.length
  | .edges k => 10 * k.length
  | .face k => 2 * k.loops.length
  | .shell k => 4 * k.length
  | _ => 0

/-- An upper bound for the parameter lines of an entity. -/
def entLines (e : Ent) : Nat := bodyLines e.body + 2 * e.extras.length + 4

/-- The surroundings behave as documented: the digit estimate, the decimal conversion (exact for 100) and the
square root. -/
structure SysOk (S : Sys) : Prop where
  est : EstOk S.est
  num : DoubleConv S.num
  sqrt : SqrtOk S.sqrt
  hundred : ∀ a : Dec, a.toRat = 100 → S.num (.dec a) = 100

theorem keep_cycle {α : Type} {f : α → Body} {most : Nat} {de i0 : Int} {fmt : Rd (Str × Int)}
    {rd : Int → Int → List Str → Rd (α × List Int × List Str)} {read : Int → Int → List Str → Rd (Body × List Int × List Str)}
    (hread : ∀ a b ls, read a b ls = keep f (rd a b ls))
    {R : α × List Int × List Str → Prop} {R' : Body × List Int × List Str → Prop}
    (hR : ∀ q, R q → R' (f q.1, q.2)) (h : Spec.PdCycle most de i0 fmt rd R) {most' : Nat} (hm : most ≤ most') :
    Spec.PdCycle most' de i0 fmt read R' := by
  obtain ⟨datas, h1, h2, h3, h4, b, hb, h5⟩ := h
  refine ⟨datas, h1, by omega, h3, h4, (f b.1, b.2), hR b hb, fun more => ?_⟩
  rw [hread, h5 more]
  rfl

theorem near_self {res rr : ℚ} (h8 : 1 / 10 ^ 8 ≤ res) (h : Spec.Near res res rr) :
    999 / 1000 * res ≤ rr ∧ rr ≤ 1001 / 1000 * res := by
  have hp : 0 < res := lt_of_lt_of_le (by norm_num) h8
  have := h.2.2 (by rwa [abs_of_pos hp])
  rw [abs_of_pos hp, abs_le] at this
  constructor <;> linarith [this.1, this.2]

/-- Each class: the entity is written, and what is read is near what was written. -/
theorem body_cycle {S : Sys} (hS : SysOk S) {W : PdEnv} (hW : W.Ok) (hWS : W.sqrt = S.sqrt ∧ W.num = S.num)
    {rr : ℚ} {note : Bool} (h8 : 1 / 10 ^ 8 ≤ W.res) (hrr : note = false → Spec.Near W.res W.res rr) (i : Nat) (e : Ent)
    (hi : 2 * (i + 1) ≤ 9999999) (hx : ExtrasOk e.extras) (hc : e.comments = []) (hok : BodyOk W.res note e.extras e.body) :
    Cycle W { W with res := rr } i e (entLines e) fun q =>
      BodyNear W.res e.body q.1 ∧ q.2.1.Perm (e.extras.map (·.de)) ∧ q.2.2 = [] := by
  intro index h1 hroom
  obtain ⟨attrs, ptrs, body, xs, cs⟩ := e
  simp only at hx hc hok ⊢
  subst hc
  have hde : 1 ≤ writeSeq i ∧ writeSeq i ≤ 9999999 := by unfold writeSeq; omega
  have set : ∀ n : Nat, n ≤ bodyLines body → Setting W (writeSeq i) index xs n := by
    intro n hn
    refine ⟨hW, hde, hx, h1, ?_⟩
    unfold entLines at hroom
    simp only at hroom
    omega
  have hsq : SqrtOk W.sqrt := by rw [hWS.1]; exact hS.sqrt
  have perm : ∀ l : List Int, l = secA xs ++ secB xs → l.Perm (xs.map (·.de)) := by
    rintro l rfl
    exact C43_pointers_kept hx
  cases body with
  | arc a =>
    obtain ⟨hn, M, hM, h2, h3, h4⟩ := hok
    obtain ⟨r1, r2⟩ := near_self h8 (hrr hn)
    have hp : 0 < W.res := lt_of_lt_of_le (by norm_num) h8
    have hsqr : rr ^ 2 ≤ (1001 / 1000 * W.res) ^ 2 := by
      have h0 : 0 ≤ rr := le_trans (by positivity) r1
      exact pow_le_pow_left₀ h0 r2 2
    have hs2 := sq_nonneg W.res
    refine keep_cycle (f := .arc) (fun _ _ _ => rfl) (fun q h => ⟨h.1, perm _ h.2.1, h.2.2⟩)
      (C29_arc_partial W (writeSeq i) index a xs rr M (set 14 le_rfl) (by linarith) hM h2 (by linarith) ?_) le_rfl
    have e1 : (1001 / 1000 * W.res) ^ 2 = 1002001 / 1000000 * W.res ^ 2 := by ring
    rw [e1] at hsqr
    linarith
  | composite k =>
    exact keep_cycle (f := .composite) (fun _ _ _ => rfl) (fun q h => ⟨h.1, perm _ h.2.1, h.2.2⟩)
      (C30_composite W (writeSeq i) index k xs (set _ le_rfl) hok.1 hok.2) le_rfl
  | conic k =>
    exact keep_cycle (f := .conic) (fun _ _ _ => rfl) (fun q h => ⟨h.1, perm _ h.2.1, h.2.2⟩)
      (C29_conic W (writeSeq i) index k xs (set _ le_rfl) hok) le_rfl
  | line k =>
    exact keep_cycle (f := .line) (fun _ _ _ => rfl) (fun q h => ⟨h.1, perm _ h.2.1, h.2.2⟩)
      (C29_line W (writeSeq i) index k xs (set _ le_rfl) hok) le_rfl
  | revolution k =>
    exact keep_cycle (f := .revolution) (fun _ _ _ => rfl) (fun q h => ⟨h.1, perm _ h.2.1, h.2.2⟩)
      (C29_revolution W (writeSeq i) index k xs (set _ le_rfl) hok.1 hok.2.1 hok.2.2) le_rfl
  | tabCyl k =>
    exact keep_cycle (f := .tabCyl) (fun _ _ _ => rfl) (fun q h => ⟨h.1, perm _ h.2.1, h.2.2⟩)
      (C29_tabulated W (writeSeq i) index k xs (set _ le_rfl) hok.1 hok.2) le_rfl
  | tx k =>
    exact keep_cycle (f := .tx) (fun _ _ _ => rfl) (fun q h => ⟨h.1, perm _ h.2.1, h.2.2⟩)
      (C29_transform W (writeSeq i) index k xs (set _ le_rfl) hok) le_rfl
  | curve d =>
    obtain ⟨ks, ps, hg, hw, hu⟩ := hok
    have hl : 2 * (ks.length + 4 * ps.length + 5) ≤ bodyLines (.curve d) := by
      simp only [bodyLines, hg.knots, hg.coeffs, Option.getD_some, ctrlArray_length]
      split <;> omega
    refine keep_cycle (f := .curve) (fun _ _ _ => rfl) (fun q h => ⟨⟨ks, ps, hg.knots, hg.coeffs, h.1⟩, perm _ h.2.1, h.2.2⟩)
      (C33_curve W (writeSeq i) index d ks ps xs (set _ hl) hg hw hsq hu) ?_
    simp only [entLines]; omega
  | surf d =>
    obtain ⟨ks1, ks2, ps, hg, hw⟩ := hok
    have hl : 2 * (ks1.length + ks2.length + 4 * ps.length + 4) ≤ bodyLines (.surf d) := by
      simp only [bodyLines, hg.knots1, hg.knots2, hg.coeffs, Option.getD_some, ctrlArray_length]
      split <;> omega
    refine keep_cycle (f := .surf) (fun _ _ _ => rfl) (fun q h => ⟨⟨ks1, ks2, ps, hg.knots1, hg.knots2, hg.coeffs, h.1⟩, perm _ h.2.1, h.2.2⟩)
      (C33_surface W (writeSeq i) index d ks1 ks2 ps xs (set _ hl) hg hw) ?_
    simp only [entLines]; omega
  | onSurface k =>
    obtain ⟨a, b, c, d, f, g⟩ := hok
    exact keep_cycle (f := .onSurface) (fun _ _ _ => rfl) (fun q h => ⟨h.1, perm _ h.2.1, h.2.2⟩)
      (C30_surface_curve W (writeSeq i) index k xs (set _ le_rfl) a b c d f g) le_rfl
  | trimmed k =>
    obtain ⟨a, b, c, d⟩ := hok
    exact keep_cycle (f := .trimmed) (fun _ _ _ => rfl) (fun q h => ⟨h.1, perm _ h.2.1, h.2.2⟩)
      (C30_trimmed_partial W (writeSeq i) index k xs (set _ le_rfl) a b c d) le_rfl
  | cylinder k =>
    obtain ⟨hn, h2, h3, h4, h5, h6⟩ := hok
    obtain ⟨r1, r2⟩ := near_self h8 (hrr hn)
    exact keep_cycle (f := .cylinder) (fun _ _ _ => rfl) (fun q h => ⟨h.1, perm _ h.2.1, h.2.2⟩)
      (C29_cylinder W (writeSeq i) index k rr xs (set _ le_rfl) hsq h2 ⟨h3.1, by linarith [h3.2]⟩ ⟨h4.1, by linarith [h4.2]⟩ h5 h6)
      le_rfl
  | extrusion k =>
    obtain ⟨a, b, c, d⟩ := hok
    exact keep_cycle (f := .extrusion) (fun _ _ _ => rfl) (fun q h => ⟨h.1, perm _ h.2.1, h.2.2⟩)
      (C29_extrusion W (writeSeq i) index k xs (set _ le_rfl) hsq a b c d) le_rfl
  | solid k =>
    obtain ⟨a, b⟩ := hok
    obtain ⟨sh, so, vo⟩ := k
    simp only at a b
    subst b
    exact keep_cycle (f := .solid) (fun _ _ _ => rfl) (fun q h => ⟨h.1, perm _ h.2.1, h.2.2⟩)
      (C30_solid_partial W (writeSeq i) index sh so xs (set _ le_rfl) a) le_rfl
  | subfigure k =>
    obtain ⟨a, b, c, d⟩ := hok
    exact keep_cycle (f := .subfigure) (fun _ _ _ => rfl) (fun q h => ⟨h.1, perm _ h.2.1, h.2.2⟩)
      (C30_subfigure W (writeSeq i) index k xs (set _ le_rfl) a b c d) le_rfl
  | colour k =>
    obtain ⟨a, b, c, d, f⟩ := hok
    exact keep_cycle (f := .colour) (fun _ _ _ => rfl) (fun q h => ⟨h.1, perm _ h.2.1, h.2.2⟩)
      (C30_colour_partial W (writeSeq i) index k xs (set _ le_rfl) (by rw [hWS.2]; exact hS.hundred) a b c d f) le_rfl
  | name k =>
    exact keep_cycle (f := .name) (fun _ _ _ => rfl) (fun q h => ⟨h.1, perm _ h.2.1, h.2.2⟩)
      (C30_name W (writeSeq i) index k xs (set _ le_rfl) hok) le_rfl
  | inst k =>
    exact keep_cycle (f := .inst) (fun _ _ _ => rfl) (fun q h => ⟨h.1, perm _ h.2.1, h.2.2⟩)
      (C30_subfigure_instance W (writeSeq i) index k xs (set _ le_rfl) hok.1 hok.2) le_rfl
  | vertices k =>
    exact keep_cycle (f := .vertices) (fun _ _ _ => rfl) (fun q h => ⟨h.1, perm _ h.2.1, h.2.2⟩)
      (C30_vertex_list W (writeSeq i) index k xs (set _ le_rfl) hok.1 hok.2) le_rfl
  | edges k =>
    exact keep_cycle (f := .edges) (fun _ _ _ => rfl) (fun q h => ⟨h.1, perm _ h.2.1, h.2.2⟩)
      (C30_edge_list W (writeSeq i) index k xs (set _ le_rfl) hok.1 hok.2.1 hok.2.2) le_rfl
  | face k =>
    exact keep_cycle (f := .face) (fun _ _ _ => rfl) (fun q h => ⟨h.1, perm _ h.2.1, h.2.2⟩)
      (C30_face W (writeSeq i) index k xs (set _ le_rfl) hok.1 hok.2.1 hok.2.2) le_rfl
  | shell k =>
    exact keep_cycle (f := .shell) (fun _ _ _ => rfl) (fun q h => ⟨h.1, perm _ h.2.1, h.2.2⟩)
      (C30_shell W (writeSeq i) index k xs (set _ le_rfl) hok.1 hok.2) le_rfl
  | tree _ => exact hok.elim
  | loop _ => exact hok.elim
  | null _ => exact hok.elim

end Iges.Props
