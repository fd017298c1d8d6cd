import Verif.Lemmas.ListBody
import Verif.Props.EntityCases
/-
C30, C31: entities that hold lists of pointers.
-/
namespace Iges.Props
open Iges

/-- The sequence number of a directory entry: odd, from 1 to 9999997. -/
def IsDE (n : Int) : Prop := 1 ≤ n ∧ n ≤ 9999997 ∧ n % 2 = 1

instance (n : Int) : Decidable (IsDE n) := by unfold IsDE; infer_instance

theorem IsDE.good {n : Int} (h : IsDE n) : goodDE n := by unfold IsDE goodDE at *; omega
theorem IsDE.odd {n : Int} (h : IsDE n) : oddDE n := by unfold IsDE oddDE at *; omega
theorem IsDE.inDE {n : Int} (h : IsDE n) : inDE n := by unfold IsDE Iges.inDE at *; omega
theorem IsDE.range {n : Int} (h : IsDE n) : -2147483648 ≤ n ∧ n ≤ 2147483647 := by unfold IsDE at *; omega

theorem flagInt_01 (b : Bool) : flagInt b = 0 ∨ flagInt b = 1 := by cases b <;> simp [flagInt]

/-- A list of pointers read with a test that all of them pass. -/
theorem Reads.des {E : PdEnv} {T : Str} {s : Src} {p : Int → Prop} [DecidablePred p]
    (hE : E.Ok) (hs : SrcOf E s) (ns : List Int) (hns : ∀ n ∈ ns, (-2147483648 ≤ n ∧ n ≤ 2147483647) ∧ p n) :
    ∀ a ∈ ns, ∀ c rest, Ready T s c ((fun n => [Param.int n]) a ++ rest) →
      ∃ b c', s.intIf p c = .val (b, c') ∧ b = a ∧ Ready T s c' rest := by
  intro a ha c rest h
  obtain ⟨c', e, h'⟩ := Ready.intIf (hs.ok hE) (p := p) h (hns a ha).1 (hns a ha).2
  exact ⟨a, c', e, rfl, h'⟩

/-- C30: a composite curve of at least one curve is read back with the same curves in the same order. -/
theorem C30_composite (E : PdEnv) (de i0 : Int) (curves : List Int) (xs : List ExtraRef)
    (hset : Setting E de i0 xs (2 * curves.length)) (hne : curves ≠ []) (hd : ∀ n ∈ curves, IsDE n) :
    Spec.PdCycle (2 * curves.length + 2 * xs.length + 4) de i0 (compositeFormat E de curves xs [] i0) (compositeReadPD E de)
      (fun r => r.1 = curves ∧ r.2.1 = secA xs ++ secB xs ∧ r.2.2 = []) := by
  have hlen : 0 < curves.length := List.length_pos_iff.mpr hne
  have hroom := hset.room
  have hfirst := hset.first
  refine intCycle (pre := [curves.length]) (R := fun t => t = curves) hset (by decide)
    (preText_fits _ (by decide) (by simp; omega) (by simp)) (by decide) hne (fun n h => (hd n h).range)
    (intGroups_ok _ _ _ fun n h => (hd n h).range) (intGroups_flatten _ _ _) ?_
  intro T s c rest hs h
  refine Reads.int hset.env hs h (by omega) fun c h => ?_
  refine Reads.need (by omega) ?_
  have h : Ready T s c (curves.map Param.int ++ rest) := h
  rw [intMap_flatMap] at h
  exact Reads.listEnd _ (fun a b => b = a) curves (by simp) h
    (Reads.des hset.env hs curves fun n h => ⟨(hd n h).range, (hd n h).good⟩)
    fun bs hb => forall2_eq hb

example := C30_composite _ _ _ [1, 9, 5] _ ((exSetting id).mono (by decide)) (by decide) (by decide)

/-- C30: a composite curve without curves is written as no lines at all. -/
theorem C30_composite_empty_not_written (E : PdEnv) (de i0 : Int) (h : 1 ≤ i0 ∧ i0 ≤ 9999999) :
    compositeFormat E de [] [] [] i0 = .val ([], i0) := by
  unfold compositeFormat formatPD
  rw [if_neg (by omega)]
  rfl

/-- C30: a curve on a surface is read back with the same surface and curves, and with the preference
that its curves allow. -/
theorem C30_surface_curve (E : PdEnv) (de i0 : Int) (k : SurfCurve) (xs : List ExtraRef)
    (hset : Setting E de i0 xs 2) (hs : IsDE k.SPTR) (hb : k.BPTR = 0 ∨ IsDE k.BPTR) (hc : k.CPTR = 0 ∨ IsDE k.CPTR)
    (h2 : ¬ (k.BPTR = 0 ∧ k.CPTR = 0)) (hcr : 0 ≤ k.CRTN ∧ k.CRTN ≤ 3) (hp : 0 ≤ k.PREF ∧ k.PREF ≤ 3) :
    Spec.PdCycle (2 + 2 * xs.length + 4) de i0 (k.format E de xs [] i0) (SurfCurve.readPD E de)
      (fun r => r.1 = { k with PREF := if k.CPTR = 0 then 1 else if k.BPTR = 0 then 2 else k.PREF } ∧
        r.2.1 = secA xs ++ secB xs ∧ r.2.2 = []) := by
  have hroom := hset.room
  have hfirst := hset.first
  have hpref : 0 ≤ k.pref ∧ k.pref ≤ 3 := by unfold SurfCurve.pref; dsimp only; split <;> (try split) <;> omega
  unfold IsDE at hs hb hc
  have hf : k.format E de xs [] i0 =
      formatPD E de [142, k.CRTN, k.SPTR, k.BPTR, k.CPTR] (intGroups E.pd (E.last xs) [k.pref]) xs [] 9999999 i0 := by
    unfold SurfCurve.format
    rw [if_neg (by omega), if_neg (by omega), if_neg h2, if_neg (by omega), if_neg (by omega)]
    rfl
  rw [hf]
  refine intCycle (etype := 142) (limit := 9999999) (pre := [k.CRTN, k.SPTR, k.BPTR, k.CPTR]) (body := SurfCurve.readParams) (ns := [k.pref])
    (R := fun t => t = { k with PREF := if k.CPTR = 0 then 1 else if k.BPTR = 0 then 2 else k.PREF }) hset (by decide)
    (preText_fits _ (by decide) (by simp; omega) (by simp)) (by decide) (by simp) (by simp; omega)
    (intGroups_ok _ _ _ (by simp; omega)) (intGroups_flatten _ _ _) ?_
  intro T s c rest hS h
  refine Reads.int hset.env hS h (by omega) fun c h => ?_
  refine Reads.need (by omega) ?_
  refine Reads.int hset.env hS h (by omega) fun c h => ?_
  refine Reads.need (by omega) ?_
  refine Reads.int hset.env hS h (by omega) fun c h => ?_
  refine Reads.need (by omega) ?_
  refine Reads.int hset.env hS h (by omega) fun c h => ?_
  refine Reads.need (by omega) ?_
  refine Reads.int hset.env hS h (by omega) fun c h => ?_
  refine Reads.need (by omega) ?_
  refine Reads.need h2 ?_
  refine Reads.ret h ?_
  simp only [SurfCurve.pref]
  congr 1
  split <;> (try split) <;> rfl

example := C30_surface_curve _ _ _ ⟨1, 3, 5, 0, 2⟩ _ ((exSetting id).mono (by decide)) (by decide) (by decide) (by decide)
  (by decide) (by decide) (by decide)

/-- C30, full statement false (see `C30_trimmed_without_boundary_refused`): a trimmed surface that has an
outer boundary curve is read back unchanged. -/
theorem C30_trimmed_partial (E : PdEnv) (de i0 : Int) (k : Trimmed) (xs : List ExtraRef)
    (hset : Setting E de i0 xs (2 * (k.PTI.length + 1))) (hs : IsDE k.PTS) (hn : k.N1 = 0 ∨ k.N1 = 1)
    (ho : IsDE k.PTO) (hi : ∀ n ∈ k.PTI, IsDE n) :
    Spec.PdCycle (2 * (k.PTI.length + 1) + 2 * xs.length + 4) de i0 (k.format E de xs [] i0) (Trimmed.readPD E de)
      (fun r => r.1 = k ∧ r.2.1 = secA xs ++ secB xs ∧ r.2.2 = []) := by
  have hroom := hset.room
  have hfirst := hset.first
  have hall : ∀ n ∈ k.PTO :: k.PTI, IsDE n := by simp; exact ⟨ho, hi⟩
  have hs' := hs
  unfold IsDE at hs'
  have hf : k.format E de xs [] i0 =
      formatPD E de [144, k.PTS, k.N1, k.PTI.length] (intGroups E.pd (E.last xs) (k.PTO :: k.PTI)) xs [] 9999999 i0 := by
    unfold Trimmed.format
    rw [if_neg (by omega), if_neg (by omega), if_neg (by omega)]
  rw [hf]
  refine intCycle (pre := [k.PTS, k.N1, k.PTI.length]) (body := Trimmed.readParams) (ns := k.PTO :: k.PTI)
    (R := fun t => t = k) (by simpa using hset) (by decide)
    (preText_fits _ (by decide) (by simp; omega) (by simp)) (by decide) (by simp) (fun n h => (hall n h).range)
    (intGroups_ok _ _ _ (fun n h => (hall n h).range)) (intGroups_flatten _ _ _) ?_
  intro T s c rest hS h
  refine Reads.intIf hset.env hS h (by omega) hs.odd fun c h => ?_
  refine Reads.int hset.env hS h (by omega) fun c h => ?_
  refine Reads.need (by omega) ?_
  refine Reads.int hset.env hS h (by omega) fun c h => ?_
  refine Reads.need (by omega) ?_
  refine Reads.intIf hset.env hS h ho.range ho.odd fun c h => ?_
  have h : Ready T s c (k.PTI.map Param.int ++ rest) := h
  rw [intMap_flatMap] at h
  refine Reads.list _ (fun a b => b = a) k.PTI (by simp) h
    (Reads.des hset.env hS k.PTI fun n h => ⟨(hi n h).range, (hi n h).odd⟩) fun bs c hb h => ?_
  refine Reads.ret h ?_
  rw [forall2_eq hb]

example := C30_trimmed_partial _ _ _ ⟨1, 1, 5, [7, 11]⟩ _ ((exSetting id).mono (by decide)) (by decide) (by decide) (by decide)
  (by decide)

/-- C30: a trimmed surface without an outer boundary curve (its boundary is that of the surface, N1 = 0)
is written, and refused on reading. -/
theorem C30_trimmed_without_boundary_refused (E : PdEnv) (de i0 : Int) (k : Trimmed) (xs : List ExtraRef)
    (hset : Setting E de i0 xs (2 * (k.PTI.length + 1))) (hs : IsDE k.PTS) (hn : k.N1 = 0 ∨ k.N1 = 1)
    (ho : k.PTO = 0) (hi : ∀ n ∈ k.PTI, IsDE n) :
    Spec.PdRefused de i0 (k.format E de xs [] i0) (Trimmed.readPD E de) := by
  have hroom := hset.room
  have hfirst := hset.first
  have hall : ∀ n ∈ k.PTO :: k.PTI, -2147483648 ≤ n ∧ n ≤ 2147483647 := by
    simp only [List.mem_cons]
    rintro n (rfl | h)
    · omega
    · exact (hi n h).range
  have hs' := hs
  unfold IsDE at hs'
  have hf : k.format E de xs [] i0 =
      formatPD E de [144, k.PTS, k.N1, k.PTI.length] (intGroups E.pd (E.last xs) (k.PTO :: k.PTI)) xs [] 9999999 i0 := by
    unfold Trimmed.format
    rw [if_neg (by omega), if_neg (by omega), if_neg (by omega)]
  rw [hf]
  refine pd_refused (pre := [k.PTS, k.N1, k.PTI.length]) (body := Trimmed.readParams) (ns := k.PTO :: k.PTI)
    (by simpa using hset) (by decide)
    (preText_fits _ (by decide) (by simp; omega) (by simp)) (by decide) (by simp) hall
    (intGroups_ok _ _ _ hall) (intGroups_flatten _ _ _) ?_
  intro j s c hS h
  have ok := hS.ok hset.env
  obtain ⟨c1, e1, h⟩ := Ready.intIf ok (p := oddDE) h (by omega) hs.odd
  obtain ⟨c2, e2, h⟩ := Ready.int ok (dflt := none) h (by omega)
  obtain ⟨c3, e3, h⟩ := Ready.int ok (dflt := none) h (by omega)
  obtain ⟨c4, e4, h⟩ := Ready.int ok (dflt := none) h (by omega)
  unfold Trimmed.readParams
  simp only [e1, e2, e3, Rd.val_bind]
  rw [Rd.need_true (by omega), Rd.val_bind, Rd.need_true (by omega), Rd.val_bind]
  simp only [Src.intIf, e4, Rd.val_bind]
  rw [Rd.need_false (by rw [ho]; decide)]
  rfl

example := C30_trimmed_without_boundary_refused _ _ _ ⟨1, 0, 0, [7, 11]⟩ _ ((exSetting id).mono (by decide)) (by decide)
  (by decide) (by decide) (by decide)

/-- C30, full statement false (see `C30_solid_voids_refused`): a solid without voids is read back unchanged. -/
theorem C30_solid_partial (E : PdEnv) (de i0 : Int) (shell : Int) (sof : Bool) (xs : List ExtraRef)
    (hset : Setting E de i0 xs 2) (hs : IsDE shell) :
    Spec.PdCycle (2 + 2 * xs.length + 4) de i0 ((⟨shell, sof, []⟩ : Solid).format E de xs [] i0) (Solid.readPD E de)
      (fun r => r.1 = ⟨shell, sof, []⟩ ∧ r.2.1 = secA xs ++ secB xs ∧ r.2.2 = []) := by
  have hroom := hset.room
  have hfirst := hset.first
  have hs' := hs
  unfold IsDE at hs'
  have hfl := flagInt_01 sof
  refine intCycle (etype := 186) (limit := 9999997) (pre := [shell, flagInt sof]) (body := Solid.readParams) (ns := [0])
    (R := fun t => t = ⟨shell, sof, []⟩) hset (by decide)
    (preText_fits _ (by decide) (by simp; omega) (by simp)) (by decide) (by simp) (by simp)
    (intGroups_ok _ _ _ (by simp)) (intGroups_flatten _ _ _) ?_
  intro T s c rest hS h
  refine Reads.intIf hset.env hS h hs.range hs.inDE fun c h => ?_
  refine Reads.flag hset.env hS h fun c h => ?_
  refine Reads.int hset.env hS h (by omega) fun c h => ?_
  refine Reads.need (by omega) ?_
  exact Reads.ret h rfl

example := C30_solid_partial _ _ _ 3 true _ ((exSetting id).mono (by decide)) (by decide)

/-- C30: a face with at least one bound is read back unchanged. -/
theorem C30_face (E : PdEnv) (de i0 : Int) (k : Face) (xs : List ExtraRef)
    (hset : Setting E de i0 xs (2 * k.loops.length)) (hs : IsDE k.surf) (hne : k.loops ≠ []) (hl : ∀ n ∈ k.loops, IsDE n) :
    Spec.PdCycle (2 * k.loops.length + 2 * xs.length + 4) de i0 (k.format E de xs [] i0) (Face.readPD E de)
      (fun r => r.1 = k ∧ r.2.1 = secA xs ++ secB xs ∧ r.2.2 = []) := by
  have hlen : 0 < k.loops.length := List.length_pos_iff.mpr hne
  have hroom := hset.room
  have hfirst := hset.first
  have hs' := hs
  unfold IsDE at hs'
  have hfl := flagInt_01 k.outer
  have hf : k.format E de xs [] i0 =
      formatPD E de [510, k.surf, k.loops.length, flagInt k.outer] (intGroups E.pd (E.last xs) k.loops) xs [] 9999997 i0 := by
    unfold Face.format
    rw [if_neg (by omega), if_neg (by rintro (h | h); omega; exact hne h)]
  rw [hf]
  refine intCycle (pre := [k.surf, k.loops.length, flagInt k.outer]) (body := Face.readParams)
    (R := fun t => t = k) hset (by decide)
    (preText_fits _ (by decide) (by simp; omega) (by simp)) (by decide) hne (fun n h => (hl n h).range)
    (intGroups_ok _ _ _ (fun n h => (hl n h).range)) (intGroups_flatten _ _ _) ?_
  intro T s c rest hS h
  refine Reads.intIf hset.env hS h hs.range hs.inDE fun c h => ?_
  refine Reads.int hset.env hS h (by omega) fun c h => ?_
  refine Reads.need (by omega) ?_
  refine Reads.flag hset.env hS h fun c h => ?_
  have h : Ready T s c (k.loops.map Param.int ++ rest) := h
  rw [intMap_flatMap] at h
  refine Reads.list _ (fun a b => b = a) k.loops (by simp) h
    (Reads.des hset.env hS k.loops fun n h => ⟨(hl n h).range, (hl n h).inDE⟩) fun bs c hb h => ?_
  refine Reads.ret h ?_
  rw [forall2_eq hb]

example := C30_face _ _ _ ⟨3, true, [5, 7]⟩ _ ((exSetting id).mono (by decide)) (by decide) (by decide) (by decide)

/-- The integers written for pointers with flags. -/
theorem deFlags_length (fs : List (Int × Bool)) : (fs.flatMap fun f => [f.1, flagInt f.2]).length = 2 * fs.length := by
  induction fs with
  | nil => rfl
  | cons a l ih => simp only [List.flatMap_cons, List.length_append, ih, List.length_cons, List.length_nil]; omega

theorem deFlags_range {fs : List (Int × Bool)} (hf : ∀ f ∈ fs, IsDE f.1) :
    ∀ n ∈ fs.flatMap fun f => [f.1, flagInt f.2], -2147483648 ≤ n ∧ n ≤ 2147483647 := by
  intro n hn
  obtain ⟨f, h1, h2⟩ := List.mem_flatMap.mp hn
  simp only [List.mem_cons, List.not_mem_nil, or_false] at h2
  rcases h2 with rfl | rfl
  · exact (hf f h1).range
  · exact flagInt_range _

theorem deFlags_enc (fs : List (Int × Bool)) : (fs.flatMap fun f => [f.1, flagInt f.2]).map Param.int =
    fs.flatMap fun f => [Param.int f.1, Param.int (flagInt f.2)] := by
  rw [List.map_flatMap]; rfl

theorem Reads.deFlags {E : PdEnv} {T : Str} {s : Src} (hE : E.Ok) (hs : SrcOf E s) (fs : List (Int × Bool))
    (hf : ∀ f ∈ fs, IsDE f.1) :
    ∀ a ∈ fs, ∀ c rest, Ready T s c ((fun f : Int × Bool => [Param.int f.1, Param.int (flagInt f.2)]) a ++ rest) →
      ∃ b c', s.deFlag c = .val (b, c') ∧ b = a ∧ Ready T s c' rest := by
  intro a ha c rest h
  obtain ⟨c1, e1, h⟩ := Ready.intIf (hs.ok hE) (p := inDE) h (hf a ha).range (hf a ha).inDE
  obtain ⟨c2, e2, h⟩ := Ready.flag (hs.ok hE) h
  exact ⟨a, c2, by simp [Src.deFlag, e1, e2], rfl, h⟩

/-- C30: a shell with at least one face is read back with the same faces and orientations. -/
theorem C30_shell (E : PdEnv) (de i0 : Int) (fs : List (Int × Bool)) (xs : List ExtraRef)
    (hset : Setting E de i0 xs (4 * fs.length)) (hne : fs ≠ []) (hd : ∀ f ∈ fs, IsDE f.1) :
    Spec.PdCycle (4 * fs.length + 2 * xs.length + 4) de i0 (shellFormat E de fs xs [] i0) (shellReadPD E de)
      (fun r => r.1 = fs ∧ r.2.1 = secA xs ++ secB xs ∧ r.2.2 = []) := by
  have hlen : 0 < fs.length := List.length_pos_iff.mpr hne
  have hroom := hset.room
  have hfirst := hset.first
  have hf : shellFormat E de fs xs [] i0 =
      formatPD E de [514, fs.length] (intGroups E.pd (E.last xs) (fs.flatMap fun f => [f.1, flagInt f.2])) xs [] 9999997 i0 := by
    unfold shellFormat
    rw [if_neg (by omega), if_neg hne]
  rw [hf]
  refine PdCycle.mono (intCycle (pre := [fs.length]) (body := shellReadParams) (R := fun t => t = fs)
    (ns := fs.flatMap fun f => [f.1, flagInt f.2])
    (by rw [deFlags_length]; exact hset.mono (by omega)) (by decide)
    (preText_fits _ (by decide) (by simp; omega) (by simp)) (by decide)
    (by intro h; have := congrArg List.length h; rw [deFlags_length] at this; simp only [List.length_nil] at this; omega)
    (deFlags_range hd) (intGroups_ok _ _ _ (deFlags_range hd)) (intGroups_flatten _ _ _) ?_) (by rw [deFlags_length]; omega)
  intro T s c rest hS h
  refine Reads.int hset.env hS h (by omega) fun c h => ?_
  refine Reads.need (by omega) ?_
  rw [deFlags_enc] at h
  exact Reads.listEnd _ (fun a b => b = a) fs (by simp) h (Reads.deFlags hset.env hS fs hd)
    fun bs hb => forall2_eq hb

example := C30_shell _ _ _ [(3, true), (5, false), (7, true)] _ ((exSetting id).mono (by decide)) (by decide) (by decide)

theorem void_misread {E : PdEnv} {s : Src} (hE : E.Ok) (hs : SrcOf E s) {j : Nat} {c : Cur} {b : Bool}
    {vs : List (Int × Bool)} (hv : ∀ v ∈ vs, IsDE v.1) (h1 : ∀ v, vs.head? = some v → v.1 ≠ 1)
    (h : Ready (List.replicate j ' ') s c (.int (flagInt b) :: vs.flatMap fun f => [Param.int f.1, Param.int (flagInt f.2)])) :
    s.deFlag c = .fail := by
  have ok := hs.ok hE
  obtain ⟨c4, e4, h⟩ := Ready.int ok (dflt := none) h (flagInt_range _)
  unfold Src.deFlag Src.intIf
  simp only [e4, Rd.val_bind]
  by_cases hin : inDE (flagInt b)
  · rw [Rd.need_true hin, Rd.val_bind, Rd.pure_eq, Rd.val_bind]
    unfold Src.flag
    cases vs with
    | nil => rw [Ready.past hE hs h]; rfl
    | cons w ws =>
      have hw := hv w (by simp)
      have hw1 := h1 w rfl
      obtain ⟨c5, e5, h⟩ := Ready.int ok (dflt := none) h hw.range
      simp only [e5, Rd.val_bind]
      rw [Rd.need_false (by unfold IsDE at hw; omega)]
      rfl
  · rw [Rd.need_false hin]; rfl

/-- C30: a solid with voids, all different, is written without their number.  The DE number of the first
void is then taken for the number of voids; if there are no optional pointers, the solid is refused on
reading. -/
theorem C30_solid_voids_refused (E : PdEnv) (de i0 : Int) (k : Solid)
    (hset : Setting E de i0 [] (4 * k.voids.length)) (hs : IsDE k.shell) (hne : k.voids ≠ [])
    (hv : ∀ v ∈ k.voids, IsDE v.1) (hnd : (k.voids.map Prod.fst).Nodup) :
    Spec.PdRefused de i0 (k.format E de [] [] i0) (Solid.readPD E de) := by
  obtain ⟨shell, sof, voids⟩ := k
  cases voids with
  | nil => exact absurd rfl hne
  | cons v vs =>
  simp only at *
  have hroom := hset.room
  have hfirst := hset.first
  have hs' := hs
  unfold IsDE at hs'
  have hfl := flagInt_01 sof
  have hv0 := hv v (by simp)
  have hv1 := hv0
  unfold IsDE at hv1
  have hvs : ∀ w ∈ vs, IsDE w.1 := fun w hw => hv w (List.mem_cons_of_mem _ hw)
  have hf : (⟨shell, sof, v :: vs⟩ : Solid).format E de [] [] i0 =
      formatPD E de [186, shell, flagInt sof]
        (intGroups E.pd (E.last []) ((v :: vs).flatMap fun f => [f.1, flagInt f.2])) [] [] 9999997 i0 := rfl
  rw [hf]
  refine pd_refused (pre := [shell, flagInt sof]) (body := Solid.readParams)
    (ns := (v :: vs).flatMap fun f => [f.1, flagInt f.2])
    (by rw [deFlags_length]; exact hset.mono (by omega)) (by decide)
    (preText_fits _ (by decide) (by simp; omega) (by simp)) (by decide)
    (by simp)
    (deFlags_range hv) (intGroups_ok _ _ _ (deFlags_range hv)) (intGroups_flatten _ _ _) ?_
  intro j s c hS h
  have ok := hS.ok hset.env
  obtain ⟨c1, e1, h⟩ := Ready.intIf ok (p := inDE) h (by omega) hs.inDE
  obtain ⟨c2, e2, h⟩ := Ready.flag ok h
  rw [deFlags_enc, List.flatMap_cons] at h
  obtain ⟨c3, e3, h⟩ := Ready.int ok (dflt := none) h hv0.range
  unfold Solid.readParams
  simp only [e1, e2, e3, Rd.val_bind]
  rw [Rd.need_true (by omega), Rd.val_bind]
  have h : Ready (List.replicate j ' ') s c3 (.int (flagInt v.2) :: ((vs.flatMap fun f => [Param.int f.1, Param.int (flagInt f.2)]) ++ [])) := h
  rw [List.append_nil] at h
  by_cases hw : ∀ w, vs.head? = some w → w.1 ≠ 1
  · obtain ⟨m, hm⟩ : ∃ m, v.1.toNat = m + 1 := ⟨v.1.toNat - 1, by omega⟩
    rw [hm]
    unfold readN
    rw [void_misread hset.env hS hvs hw h]
    rfl
  · push Not at hw
    obtain ⟨w, hw, hw1⟩ := hw
    cases vs with
    | nil => simp at hw
    | cons w' ws =>
    simp only [List.head?_cons, Option.some.injEq] at hw
    subst hw
    simp only [List.map_cons, List.nodup_cons, List.mem_cons, not_or] at hnd
    obtain ⟨m, hm⟩ : ∃ m, v.1.toNat = m + 2 := ⟨v.1.toNat - 2, by omega⟩
    rw [hm]
    obtain ⟨c4, e4, h⟩ := Ready.int ok (dflt := none) h (flagInt_range _)
    obtain ⟨c5, e5, h⟩ := Ready.int ok (dflt := none) h (by omega)
    have hmis := void_misread hset.env hS (j := j) (c := c5) (b := w'.2) (vs := ws)
      (fun u hu => hvs u (List.mem_cons_of_mem _ hu))
      (by
        intro u hu hu1
        exact hnd.2.1 (List.mem_map.mpr ⟨u, List.mem_of_mem_head? hu, by rw [hu1, hw1]⟩)) h
    unfold readN
    have : s.deFlag c3 = .fail ∨ s.deFlag c3 = .val ((flagInt v.2, true), c5) := by
      unfold Src.deFlag Src.intIf
      simp only [e4, Rd.val_bind]
      by_cases hin : inDE (flagInt v.2)
      · right
        rw [Rd.need_true hin, Rd.val_bind, Rd.pure_eq, Rd.val_bind]
        unfold Src.flag
        simp only [e5, Rd.val_bind]
        rw [Rd.need_true (by omega), hw1]
        rfl
      · left; rw [Rd.need_false hin]; rfl
    rcases this with h1 | h1
    · rw [h1]; rfl
    · rw [h1, Rd.val_bind]
      simp only
      unfold readN
      rw [hmis]
      rfl

example := C30_solid_voids_refused (exEnv id (1 / 1000)) 7 3 ⟨3, true, [(5, true), (1, true), (9, false)]⟩
  ⟨exEnv_ok id (by norm_num), by decide, ⟨by decide, by decide⟩, by decide, by decide⟩ (by decide) (by decide) (by decide) (by decide)

/-- C30: a subfigure definition with at least one entity is read back with its depth, name and entities. -/
theorem C30_subfigure (E : PdEnv) (de i0 : Int) (k : Subfigure) (xs : List ExtraRef)
    (hset : Setting E de i0 xs (hCost k.name + 2 * k.DE.length + 2)) (hd : 0 ≤ k.depth ∧ k.depth ≤ 2147483647)
    (hname : '\n' ∉ k.name) (hne : k.DE ≠ []) (hl : ∀ n ∈ k.DE, IsDE n) :
    Spec.PdCycle (hCost k.name + 2 * k.DE.length + 2 + 2 * xs.length + 4) de i0 (k.format E de xs [] i0) (Subfigure.readPD E de)
      (fun r => r.1 = k ∧ r.2.1 = secA xs ++ secB xs ∧ r.2.2 = []) := by
  have hlen : 0 < k.DE.length := List.length_pos_iff.mpr hne
  have hroom := hset.room
  have hfirst := hset.first
  have hf : k.format E de xs [] i0 = formatPD E de [308, k.depth]
      ([(.str k.name, E.pd)] :: [(.int k.DE.length, E.pd)] :: intGroups E.pd (E.last xs) k.DE) xs [] 9999999 i0 := by
    unfold Subfigure.format
    rw [if_neg (by omega), if_neg hne]
  rw [hf]
  refine pdCycle (pre := [k.depth]) hset.env (R := fun t => t = k) (body := Subfigure.readParams)
    (items := .str k.name :: .int k.DE.length :: k.DE.map .int) hset.de (by decide)
    (preText_fits _ (by decide) (by simp; omega) (by simp)) (by simp) ?_ ?_ ?_ hset.extras ⟨hset.first, by omega⟩ hset.room ?_ ?_
  · intro it hit
    simp only [List.mem_cons, List.mem_map] at hit
    rcases hit with rfl | rfl | ⟨n, hn, rfl⟩
    · exact hname
    · show _ ∧ _; omega
    · exact (hl n hn).range
  · intro g hg
    simp only [List.mem_cons] at hg
    rcases hg with rfl | rfl | hg
    · exact Or.inl ⟨_, _, rfl, hname⟩
    · exact Or.inl ⟨_, _, rfl, by show _ ∧ _; omega⟩
    · exact intGroups_ok _ _ _ (fun n hn => (hl n hn).range) g hg
  · rw [List.flatten_cons, List.flatten_cons, intGroups_flatten]
    cases h : k.DE with
    | nil => exact absurd h hne
    | cons a l => rfl
  · simp only [List.map_cons, List.sum_cons, intItems_cost, Item.cost]
    omega
  · intro T s c rest hS h
    refine Reads.int hset.env hS h (by omega) fun c h => ?_
    refine Reads.need (by omega) ?_
    refine Reads.str hset.env hS h fun c h => ?_
    refine Reads.int hset.env hS h (by omega) fun c h => ?_
    refine Reads.need (by omega) ?_
    have h : Ready T s c ((k.DE.map Item.int).map (Item.param E) ++ rest) := h
    rw [List.map_map, show Item.param E ∘ Item.int = Param.int from rfl, intMap_flatMap] at h
    refine Reads.list _ (fun a b => b = a) k.DE (by simp) h
      (Reads.des hset.env hS k.DE fun n h => ⟨(hl n h).range, (hl n h).odd⟩) fun bs c hb h => ?_
    refine Reads.ret h ?_
    rw [forall2_eq hb]

example := C30_subfigure _ _ _ ⟨2, "a, b; c".toList, [3, 5]⟩ _ ((exSetting id).mono (by decide)) (by decide) (by decide)
  (by decide) (by decide)

/-! ### Edge lists -/

/-- The integers of an edge. -/
def Edge.ints (e : Edge) : List Int := [e.curv, e.svp, e.sv, e.tvp, e.tv]

theorem edgeGroups_flatten (pd last : Char) : ∀ es : List Edge,
    (edgeGroups pd last es).flatten = closeItems pd last ((es.flatMap Edge.ints).map Item.int)
  | [] => rfl
  | [_] => rfl
  | e :: f :: es => by
    have := edgeGroups_flatten pd last (f :: es)
    simp only [edgeGroups, List.flatten_cons, this]
    simp [Edge.group, Edge.ints, closeItems]

theorem edgeGroups_ok (pd last : Char) : ∀ es : List Edge,
    (∀ n ∈ es.flatMap Edge.ints, -2147483648 ≤ n ∧ n ≤ 2147483647) → ∀ g ∈ edgeGroups pd last es, GroupOk g := by
  have key : ∀ (e : Edge) (d : Char), (∀ n ∈ Edge.ints e, -2147483648 ≤ n ∧ n ≤ 2147483647) → GroupOk (e.group pd d) := by
    intro e d h
    refine Or.inr ⟨by simp [Edge.group], by simp [Edge.group], ?_⟩
    simp only [Edge.ints, List.mem_cons, List.not_mem_nil, or_false, forall_eq_or_imp, forall_eq] at h
    obtain ⟨h1, h2, h3, h4, h5⟩ := h
    intro x hx
    simp only [Edge.group, List.mem_cons, List.not_mem_nil, or_false] at hx
    rcases hx with rfl | rfl | rfl | rfl | rfl
    exacts [⟨_, rfl, h1⟩, ⟨_, rfl, h2⟩, ⟨_, rfl, h3⟩, ⟨_, rfl, h4⟩, ⟨_, rfl, h5⟩]
  intro es
  induction es with
  | nil => intro _ g hg; simp [edgeGroups] at hg
  | cons e es ih =>
    intro h g hg
    rw [List.flatMap_cons] at h
    have h1 : ∀ n ∈ Edge.ints e, _ := fun n hn => h n (List.mem_append_left _ hn)
    have h2 : ∀ n ∈ es.flatMap Edge.ints, _ := fun n hn => h n (List.mem_append_right _ hn)
    cases es with
    | nil =>
      simp only [edgeGroups, List.mem_singleton] at hg
      rw [hg]; exact key e last h1
    | cons f es =>
      simp only [edgeGroups, List.mem_cons] at hg
      rcases hg with rfl | hg
      · exact key e pd h1
      · exact ih h2 g (by simpa using hg)

theorem edges_length (es : List Edge) : (es.flatMap Edge.ints).length = 5 * es.length := by
  induction es with
  | nil => rfl
  | cons a l ih => simp only [List.flatMap_cons, List.length_append, ih, List.length_cons, Edge.ints, List.length_nil]; omega

/-- C30: an edge list with at least one edge is read back with the same curves, vertex lists and vertex
indices in the same order. -/
theorem C30_edge_list (E : PdEnv) (de i0 : Int) (es : List Edge) (xs : List ExtraRef)
    (hset : Setting E de i0 xs (10 * es.length)) (hne : es ≠ [])
    (hd : ∀ e ∈ es, IsDE e.curv ∧ IsDE e.svp ∧ IsDE e.tvp)
    (hi : ∀ e ∈ es, (1 ≤ e.sv ∧ e.sv ≤ 2147483647) ∧ (1 ≤ e.tv ∧ e.tv ≤ 2147483647)) :
    Spec.PdCycle (10 * es.length + 2 * xs.length + 4) de i0 (edgeFormat E de es xs [] i0) (edgeReadPD E de)
      (fun r => r.1 = es ∧ r.2.1 = secA xs ++ secB xs ∧ r.2.2 = []) := by
  have hlen : 0 < es.length := List.length_pos_iff.mpr hne
  have hroom := hset.room
  have hfirst := hset.first
  have hf : edgeFormat E de es xs [] i0 =
      formatPD E de [504, es.length] (edgeGroups E.pd (E.last xs) es) xs [] 9999999 i0 := by
    unfold edgeFormat
    rw [if_neg (by omega), if_neg hne]
  rw [hf]
  have hr : ∀ n ∈ es.flatMap Edge.ints, -2147483648 ≤ n ∧ n ≤ 2147483647 := by
    intro n hn
    obtain ⟨e, he, hn⟩ := List.mem_flatMap.mp hn
    obtain ⟨d1, d2, d3⟩ := hd e he
    have := hi e he
    simp only [Edge.ints, List.mem_cons, List.not_mem_nil, or_false] at hn
    rcases hn with rfl | rfl | rfl | rfl | rfl
    exacts [d1.range, d2.range, by omega, d3.range, by omega]
  refine PdCycle.mono (intCycle (pre := [es.length]) (body := edgeReadParams) (R := fun t => t = es)
    (ns := es.flatMap Edge.ints)
    (by rw [edges_length]; exact hset.mono (by omega)) (by decide)
    (preText_fits _ (by decide) (by simp; omega) (by simp)) (by decide)
    (by intro h; have := congrArg List.length h; rw [edges_length] at this; simp only [List.length_nil] at this; omega)
    hr (edgeGroups_ok _ _ _ hr) (edgeGroups_flatten _ _ _) ?_) (by rw [edges_length]; omega)
  intro T s c rest hS h
  refine Reads.int hset.env hS h (by omega) fun c h => ?_
  refine Reads.need (by omega) ?_
  rw [List.map_flatMap] at h
  refine Reads.listEnd _ (fun a b => b = a) es (by simp) h ?_ fun bs hb => forall2_eq hb
  intro e he c rest h
  have ok := hS.ok hset.env
  have hre : ∀ n ∈ Edge.ints e, -2147483648 ≤ n ∧ n ≤ 2147483647 := fun n hn => hr n (List.mem_flatMap.mpr ⟨e, he, hn⟩)
  obtain ⟨c1, e1, h⟩ := Ready.int ok (dflt := none) h (hre _ (by simp [Edge.ints]))
  obtain ⟨c2, e2, h⟩ := Ready.int ok (dflt := none) h (hre _ (by simp [Edge.ints]))
  obtain ⟨c3, e3, h⟩ := Ready.int ok (dflt := none) h (hre _ (by simp [Edge.ints]))
  obtain ⟨c4, e4, h⟩ := Ready.int ok (dflt := none) h (hre _ (by simp [Edge.ints]))
  obtain ⟨c5, e5, h⟩ := Ready.int ok (dflt := none) h (hre _ (by simp [Edge.ints]))
  exact ⟨e, c5, by simp [readEdge, e1, e2, e3, e4, e5], rfl, h⟩

example := C30_edge_list _ _ _ [⟨3, 5, 1, 5, 2⟩, ⟨9, 5, 2, 11, 1⟩] _ ((exSetting id).mono (by decide)) (by decide)
  (by decide) (by decide)

/-- C30: an edge list, vertex list or loop without members is not refused; writing it is undefined. -/
theorem C30_empty_lists_undefined (E : PdEnv) (de i0 : Int) (xs : List ExtraRef) (cs : List Str)
    (h : 1 ≤ i0 ∧ i0 ≤ 9999999) :
    edgeFormat E de [] xs cs i0 = .ub ∧ vertexFormat E de [] xs cs i0 = .ub ∧ loopFormat E de [] xs cs i0 = .ub := by
  refine ⟨?_, ?_, ?_⟩
  · unfold edgeFormat; rw [if_neg (by omega)]; rfl
  · unfold vertexFormat; rw [if_neg (by omega)]; rfl
  · unfold loopFormat; rw [if_neg (by omega)]; rfl

/-- C30: writing a loop in which some edge has no parameter-space curve (as in every loop whose edges
only refer to an edge list) is undefined. -/
theorem C30_loop_without_curves_undefined (E : PdEnv) (de i0 : Int) (es : List LoopEdge) (xs : List ExtraRef)
    (cs : List Str) (h : 1 ≤ i0 ∧ i0 ≤ 9999999) (e : LoopEdge) (he : e ∈ es) (hp : e.pcurves = []) :
    loopFormat E de es xs cs i0 = .ub := by
  unfold loopFormat
  rw [if_neg (by omega), if_pos (Or.inr ⟨e, he, hp⟩)]

end Iges.Props
