import Verif.Spec.Defaults
import Verif.Lemmas.EntityBody
import Verif.Props.EntityCases
import Verif.Props.TreeBuild
/-
C66: parameters that a record leaves out.
-/
namespace Iges.Props
open Iges Iges.Spec Iges.Props.TreeBuild

/-- what is left to read: the fields `fs`, or nothing because the record has ended -/
def Left (s : Src) (c : Cur) (fs : List Str) : Prop :=
  c.eor = fs.isEmpty ∧ (fs ≠ [] → ∃ tail, s.data.drop c.idx = record s.pd s.rd fs ++ tail)

/-- the first field left to read -/
theorem Left.token {s : Src} {c : Cur} {f : Str} {fs : List Str} (h : Left s c (f :: fs))
    (hne : s.pd ≠ s.rd) (hp : s.pd ∉ f) (hr : s.rd ∉ f) :
    ∃ c', Left s c' fs ∧ ParseLString s.data c.idx c.eor s.pd s.rd = .ok ⟨true, f, c'.idx, c'.eor⟩ := by
  obtain ⟨he, hd⟩ := h
  obtain ⟨tail, hd⟩ := hd (by simp)
  rw [List.isEmpty_cons] at he
  cases fs with
  | nil =>
    have ht : TokenAt s.data c.idx s.pd s.rd f s.rd := ⟨tail, by rw [hd]; simp [record], Or.inr rfl, hp, hr⟩
    refine ⟨⟨c.idx + f.length + 1, true⟩, ⟨rfl, by simp⟩, ?_⟩
    rw [ParseLString_token ht, if_pos rfl]
  | cons g fs =>
    have ht : TokenAt s.data c.idx s.pd s.rd f s.pd :=
      ⟨record s.pd s.rd (g :: fs) ++ tail, by rw [hd]; simp [record], Or.inl rfl, hp, hr⟩
    refine ⟨⟨c.idx + f.length + 1, false⟩, ⟨rfl, fun _ => ⟨tail, ?_⟩⟩, ?_⟩
    · simp only
      rw [Nat.add_assoc, ← List.drop_drop, hd]
      simp [record]
    · rw [ParseLString_token ht, if_neg hne, he]

/-- reading a field that holds a number -/
theorem Left.real {s : Src} {c : Cur} {f : Str} {fs : List Str} (h : Left s c (f :: fs)) (hne : s.pd ≠ s.rd)
    (hp : s.pd ∉ f) (hr : s.rd ∉ f) (hf : IsNumber f) (d : Option RealTok) :
    ∃ c', Left s c' fs ∧ s.real c d = .val (number s.num f, c') := by
  obtain ⟨c', hl, e⟩ := h.token hne hp hr
  obtain ⟨h1, h2, h3⟩ := hf
  refine ⟨c', hl, ?_⟩
  unfold Src.real ParseReal
  rw [e]
  simp [Res.bind, Rd.lift, h1, h2, h3, number]

/-- reading a parameter that may be left out -/
theorem Left.realOr {s : Src} {c : Cur} {fs : List Str} (h : Left s c fs) (hne : s.pd ≠ s.rd)
    (hf : Fields s.pd s.rd fs) {d : RealTok} {v : ℚ} (hv : s.num d = v) :
    ∃ c', Left s c' fs.tail ∧ s.realOr c (some d) v = .val (valueAt s.num fs 0 v, c') := by
  cases fs with
  | nil =>
    refine ⟨c, h, ?_⟩
    unfold Src.realOr
    rw [h.1]; rfl
  | cons f fs =>
    obtain ⟨hp, hr, ho⟩ := hf f List.mem_cons_self
    have he : s.realOr c (some d) v = s.real c (some d) := by unfold Src.realOr; rw [h.1]; rfl
    rw [he]
    rcases ho with rfl | hn
    · obtain ⟨c', hl, e⟩ := h.token hne hp hr
      refine ⟨c', hl, ?_⟩
      unfold Src.real ParseReal
      rw [e]
      simp [Res.bind, Rd.lift, hv, valueAt]
    · obtain ⟨c', hl, e⟩ := h.real hne hp hr hn (some d)
      refine ⟨c', hl, ?_⟩
      rw [e]
      simp [valueAt, hn.1]

theorem fields_tail {pd rd : Char} {fs : List Str} (h : Fields pd rd fs) : Fields pd rd fs.tail :=
  fun t ht => h t (List.mem_of_mem_tail ht)

theorem valueAt_tail (num : RealTok → ℚ) (fs : List Str) (i : Nat) (d : ℚ) :
    valueAt num fs.tail i d = valueAt num fs (i + 1) d := by
  cases fs with
  | nil => simp [valueAt]
  | cons f fs => simp [valueAt]

/-- the start of the parameters in the text of a record -/
theorem readPD_record {α : Type} {E : PdEnv} {etype de pdata count : Int} {ls : List Str} {data name tail : Str}
    {fs : List Str} {body : Src → Cur → Rd (α × Cur)} {a : α}
    (hdata : readPDText etype de pdata count E.pd E.rd ls = .ok (some data))
    (hrec : data = record E.pd E.rd (name :: fs) ++ tail) (hfs : fs ≠ []) (hname : E.pd ∉ name)
    (hlen : 1 ≤ name.length ∧ name.length ≤ 8)
    (hbody : ∀ c, Left ⟨data, E.pd, E.rd, E.num⟩ c fs → ∃ c', c'.eor = true ∧ body ⟨data, E.pd, E.rd, E.num⟩ c = .val (a, c')) :
    ∃ cs, readPDWith E etype de pdata count ls body = .val (a, [], cs) := by
  have hfind : ∀ (t : Str) (r : Str), E.pd ∉ t → findChar E.pd (t ++ E.pd :: r) = some t.length := by
    intro t r ht
    induction t with
    | nil => simp [findChar]
    | cons x t ih =>
      simp only [List.mem_cons, not_or] at ht
      simp [findChar, Ne.symm ht.1, ih ht.2]
  obtain ⟨g, gs, rfl⟩ := List.exists_cons_of_ne_nil hfs
  have hd : data = name ++ E.pd :: (record E.pd E.rd (g :: gs) ++ tail) := by rw [hrec]; simp [record]
  obtain ⟨c', he, hb⟩ := hbody ⟨name.length + 1, false⟩ ⟨rfl, fun _ => ⟨tail, by
    simp only
    rw [hd, show name ++ E.pd :: (record E.pd E.rd (g :: gs) ++ tail) = (name ++ [E.pd]) ++ (record E.pd E.rd (g :: gs) ++ tail) by simp]
    rw [List.drop_left' (by simp)]⟩⟩
  refine ⟨readComments data c'.idx, ?_⟩
  unfold readPDWith
  rw [hdata]
  simp only [Rd.lift]
  have : findChar E.pd data = some name.length := by rw [hd]; exact hfind _ _ hname
  rw [this]
  simp only
  rw [if_neg (by omega), hb, Rd.val_bind]
  simp only [he, if_true, Rd.val_bind]
  rfl

/-- C66. A right circular cylinder of which all that follows height and radius may be left out, by empty fields or by
ending the record, except that a field for the last direction component must not be empty: the values left out are
zero, and one for the last direction component. -/
theorem C66_cylinder_partial (E : PdEnv) (de pdata count : Int) (ls : List Str) (data tail h r : Str) (fs : List Str)
    (hne : E.pd ≠ E.rd) (h0 : E.num tok0 = 0)
    (hdata : readPDText 154 de pdata count E.pd E.rd ls = .ok (some data))
    (hrec : data = record E.pd E.rd ("154".toList :: h :: r :: fs) ++ tail) (hpd : E.pd ∉ "154".toList)
    (hf : Fields E.pd E.rd (h :: r :: fs)) (hlen : fs.length ≤ 6)
    (hh : IsNumber h ∧ E.res ≤ number E.num h) (hr : IsNumber r ∧ E.res ≤ number E.num r)
    (hlast : fs[5]? ≠ some []) :
    let dir := CheckNormalQ E.sqrt ⟨valueAt E.num fs 3 0, valueAt E.num fs 4 0, valueAt E.num fs 5 1⟩
    ∃ cs, Cylinder.readPD E de pdata count ls =
      .val (⟨number E.num h, number E.num r, valueAt E.num fs 0 0, valueAt E.num fs 1 0, valueAt E.num fs 2 0,
        dir.x, dir.y, dir.z⟩, [], cs) := by
  intro dir
  refine readPD_record hdata hrec (by simp) hpd (by decide) ?_
  intro c hc
  obtain ⟨g1, g2, -⟩ := hf h List.mem_cons_self
  obtain ⟨g3, g4, -⟩ := hf r (by simp)
  have hf' : Fields E.pd E.rd fs := fun t ht => hf t (by simp [ht])
  obtain ⟨c1, l1, e1⟩ := hc.real hne g1 g2 hh.1 none
  obtain ⟨c2, l2, e2⟩ := l1.real hne g3 g4 hr.1 none
  obtain ⟨c3, l3, e3⟩ := l2.realOr hne hf' h0
  obtain ⟨c4, l4, e4⟩ := l3.realOr hne (fields_tail hf') h0
  obtain ⟨c5, l5, e5⟩ := l4.realOr hne (fields_tail (fields_tail hf')) h0
  obtain ⟨c6, l6, e6⟩ := l5.realOr hne (fields_tail (fields_tail (fields_tail hf'))) h0
  obtain ⟨c7, l7, e7⟩ := l6.realOr hne (fields_tail (fields_tail (fields_tail (fields_tail hf')))) h0
  have last : ∃ c8, c8.eor = true ∧ Src.realOr ⟨data, E.pd, E.rd, E.num⟩ c7 none 1 = .val (valueAt E.num fs 5 1, c8) := by
    have ev : valueAt E.num fs 5 1 = valueAt E.num fs.tail.tail.tail.tail.tail 0 1 := by simp only [valueAt_tail]
    have el : fs.tail.tail.tail.tail.tail.length ≤ 1 := by simp only [List.length_tail]; omega
    have eh : fs.tail.tail.tail.tail.tail[0]? = fs[5]? := by simp only [List.getElem?_tail]
    rw [ev]
    generalize hgs : fs.tail.tail.tail.tail.tail = gs at l7 el eh ⊢
    have hfg : Fields E.pd E.rd gs := by rw [← hgs]; exact (fields_tail (fields_tail (fields_tail (fields_tail (fields_tail hf')))))
    match gs, l7, el, eh, hfg with
    | [], l7, _, _, _ =>
      refine ⟨c7, l7.1, ?_⟩
      unfold Src.realOr
      rw [l7.1]; rfl
    | [t], l7, _, eh, hfg =>
      obtain ⟨p1, p2, p3⟩ := hfg t List.mem_cons_self
      have ht : t ≠ [] := by
        rintro rfl
        exact hlast (by rw [← eh]; rfl)
      obtain ⟨c8, l8, e8⟩ := l7.real hne p1 p2 (p3.resolve_left ht) none
      refine ⟨c8, l8.1, ?_⟩
      have : Src.realOr ⟨data, E.pd, E.rd, E.num⟩ c7 none 1 = Src.real ⟨data, E.pd, E.rd, E.num⟩ c7 none := by
        unfold Src.realOr; rw [l7.1]; rfl
      rw [this, e8]
      simp [valueAt, ht]
    | _ :: _ :: _, _, el, _, _ => simp at el
  obtain ⟨c8, hc8, e8⟩ := last
  refine ⟨c8, hc8, ?_⟩
  unfold Cylinder.readParams
  rw [e1, Rd.val_bind]
  simp only [if_neg (not_lt.2 hh.2), Rd.val_bind]
  rw [e2, Rd.val_bind]
  simp only [if_neg (not_lt.2 hr.2)]
  rw [e3, Rd.val_bind]
  simp only
  rw [e4, Rd.val_bind]
  simp only
  rw [e5, Rd.val_bind]
  simp only
  rw [e6, Rd.val_bind]
  simp only
  rw [e7, Rd.val_bind]
  simp only
  rw [e8, Rd.val_bind]
  simp only [valueAt_tail]
  rfl

/-- reading a field that holds an integer -/
theorem Left.int {s : Src} {c : Cur} {f : Str} {fs : List Str} {n : Int} (h : Left s c (f :: fs)) (hne : s.pd ≠ s.rd)
    (hp : s.pd ∉ f) (hr : s.rd ∉ f) (hf : IsInteger f n) (d : Option Int) :
    ∃ c', Left s c' fs ∧ s.int c d = .val (n, c') := by
  obtain ⟨c', hl, e⟩ := h.token hne hp hr
  obtain ⟨h1, h2, h3, h4⟩ := hf
  refine ⟨c', hl, ?_⟩
  unfold Src.int ParseInt
  rw [e]
  simp [Res.bind, Rd.lift, h1, h2, h3, h4]

/-- C66. A solid of linear extrusion of which the direction may be left out, by empty fields or by ending the record: the
values left out are zero, and one for the last component.  If the record ends before the last component, the others
must be zero. -/
theorem C66_extrusion_partial (E : PdEnv) (de pdata count : Int) (ls : List Str) (data tail p l : Str) (fs : List Str)
    (n : Int) (hne : E.pd ≠ E.rd) (h0 : E.num tok0 = 0) (h1 : E.num tok1 = 1)
    (hdata : readPDText 164 de pdata count E.pd E.rd ls = .ok (some data))
    (hrec : data = record E.pd E.rd ("164".toList :: p :: l :: fs) ++ tail) (hpd : E.pd ∉ "164".toList)
    (hp : IsInteger p n ∧ E.pd ∉ p ∧ E.rd ∉ p) (hn : 1 ≤ n)
    (hf : Fields E.pd E.rd (l :: fs)) (hlen : fs.length ≤ 3) (hl : IsNumber l)
    (hlast : fs.length = 3 ∨ (valueAt E.num fs 0 0 = 0 ∧ valueAt E.num fs 1 0 = 0)) :
    let dir := CheckNormalQ E.sqrt ⟨valueAt E.num fs 0 0, valueAt E.num fs 1 0, valueAt E.num fs 2 1⟩
    ∃ cs, Extrusion.readPD E de pdata count ls = .val (⟨n, number E.num l, dir.x, dir.y, dir.z⟩, [], cs) := by
  intro dir
  refine readPD_record hdata hrec (by simp) hpd (by decide) ?_
  intro c hc
  obtain ⟨g1, g2, -⟩ := hf l List.mem_cons_self
  have hf' : Fields E.pd E.rd fs := fun t ht => hf t (by simp [ht])
  obtain ⟨c1, l1, e1⟩ := hc.int hne hp.2.1 hp.2.2 hp.1 none
  obtain ⟨c2, l2, e2⟩ := l1.real hne g1 g2 hl none
  obtain ⟨c3, l3, e3⟩ := l2.realOr hne hf' h0
  obtain ⟨c4, l4, e4⟩ := l3.realOr hne (fields_tail hf') h0
  have last : ∃ v c5, c5.eor = true ∧ Src.realOr ⟨data, E.pd, E.rd, E.num⟩ c4 (some tok1) 0 = .val (v, c5) ∧
      CheckNormalQ E.sqrt ⟨valueAt E.num fs 0 0, valueAt E.num fs 1 0, v⟩ = dir := by
    have eq : valueAt E.num fs 2 1 = valueAt E.num fs.tail.tail 0 1 := by simp only [valueAt_tail]
    rcases hlast with h3 | ⟨z1, z2⟩
    · have he : c4.eor = false := by
        rw [l4.1, List.isEmpty_eq_false_iff]
        intro e
        have := congrArg List.length e
        simp [h3] at this
      have : Src.realOr ⟨data, E.pd, E.rd, E.num⟩ c4 (some tok1) 0 = Src.realOr ⟨data, E.pd, E.rd, E.num⟩ c4 (some tok1) 1 := by
        unfold Src.realOr; simp [he]
      obtain ⟨c5, l5, e5⟩ := l4.realOr hne (fields_tail (fields_tail hf')) h1
      refine ⟨_, c5, ?_, this.trans e5, by rw [← eq]⟩
      rw [l5.1, List.isEmpty_iff_length_eq_zero]
      simp [h3]
    · cases hgs : fs.tail.tail with
      | nil =>
        rw [hgs] at l4
        refine ⟨0, c4, l4.1, ?_, ?_⟩
        · unfold Src.realOr; rw [l4.1]; rfl
        · show CheckNormalQ _ _ = CheckNormalQ _ _
          rw [eq, hgs, z1, z2]
          simp [valueAt, CheckNormalQ]
      | cons g gs =>
        have he : c4.eor = false := by rw [l4.1, hgs]; rfl
        have : Src.realOr ⟨data, E.pd, E.rd, E.num⟩ c4 (some tok1) 0 = Src.realOr ⟨data, E.pd, E.rd, E.num⟩ c4 (some tok1) 1 := by
          unfold Src.realOr; simp [he]
        obtain ⟨c5, l5, e5⟩ := l4.realOr hne (fields_tail (fields_tail hf')) h1
        refine ⟨_, c5, ?_, this.trans e5, by rw [← eq]⟩
        rw [l5.1, List.isEmpty_iff_length_eq_zero]
        simp only [List.length_tail]
        omega
  obtain ⟨v, c5, hc5, e5, ed⟩ := last
  refine ⟨c5, hc5, ?_⟩
  unfold Extrusion.readParams
  rw [e1, Rd.val_bind]
  simp only
  rw [Rd.need, if_pos (by omega), Rd.val_bind, e2, Rd.val_bind]
  simp only
  rw [e3, Rd.val_bind]
  simp only
  rw [e4, Rd.val_bind]
  simp only [valueAt_tail]
  rw [e5, Rd.val_bind]
  simp only [ed, zero_add]
  rfl

/-- C66. An instance of a subfigure without a scale, or with an empty field for it, has the scale one. -/
theorem C66_instance (E : PdEnv) (de pdata count : Int) (ls : List Str) (data tail p x y z : Str) (fs : List Str)
    (n : Int) (hne : E.pd ≠ E.rd) (h1 : E.num tok1 = 1)
    (hdata : readPDText 408 de pdata count E.pd E.rd ls = .ok (some data))
    (hrec : data = record E.pd E.rd ("408".toList :: p :: x :: y :: z :: fs) ++ tail) (hpd : E.pd ∉ "408".toList)
    (hp : IsInteger p n ∧ E.pd ∉ p ∧ E.rd ∉ p) (hn : 1 ≤ n ∧ n % 2 = 1 ∧ n ≤ 9999997)
    (hf : Fields E.pd E.rd (x :: y :: z :: fs)) (hlen : fs.length ≤ 1) (hx : IsNumber x) (hy : IsNumber y) (hz : IsNumber z) :
    ∃ cs, SubInstance.readPD E de pdata count ls =
      .val (⟨n, number E.num x, number E.num y, number E.num z, valueAt E.num fs 0 1⟩, [], cs) := by
  refine readPD_record hdata hrec (by simp) hpd (by decide) ?_
  intro c hc
  obtain ⟨g1, g2, -⟩ := hf x (by simp)
  obtain ⟨g3, g4, -⟩ := hf y (by simp)
  obtain ⟨g5, g6, -⟩ := hf z (by simp)
  have hf' : Fields E.pd E.rd fs := fun t ht => hf t (by simp [ht])
  obtain ⟨c1, l1, e1⟩ := hc.int hne hp.2.1 hp.2.2 hp.1 none
  obtain ⟨c2, l2, e2⟩ := l1.real hne g1 g2 hx none
  obtain ⟨c3, l3, e3⟩ := l2.real hne g3 g4 hy none
  obtain ⟨c4, l4, e4⟩ := l3.real hne g5 g6 hz none
  obtain ⟨c5, l5, e5⟩ := l4.realOr hne hf' h1
  refine ⟨c5, ?_, ?_⟩
  · rw [l5.1, List.isEmpty_iff_length_eq_zero]
    simp only [List.length_tail]
    omega
  unfold SubInstance.readParams
  rw [e1, Rd.val_bind]
  simp only
  rw [Rd.need, if_pos (by omega), Rd.val_bind, e2, Rd.val_bind]
  simp only
  rw [e3, Rd.val_bind]
  simp only
  rw [e4, Rd.val_bind]
  simp only
  rw [e5, Rd.val_bind]
  rfl

namespace Defaults
deriving instance DecidableEq for Cylinder, Extrusion, SubInstance
end Defaults

/-- C66: a cylinder of which only height, radius and the X coordinate of the centre are given. -/
example : ∃ data tail cs, readPDText 154 7 1 1 ',' ';' [sampleLine "154,2.5,1.5,,3.0,;"] = .ok (some data) ∧
    data = record ',' ';' ["154".toList, "2.5".toList, "1.5".toList, [], "3.0".toList, []] ++ tail ∧
    Cylinder.readPD (exEnv id (1 / 1000)) 7 1 1 [sampleLine "154,2.5,1.5,,3.0,;"] =
      .val (⟨5 / 2, 3 / 2, 0, 3, 0, 0, 0, 1⟩, [], cs) :=
  ⟨_, List.replicate 46 ' ', [], rfl, by decide +kernel, by decide +kernel⟩

example : Fields ',' ';' ["2.5".toList, "1.5".toList, [], "3.0".toList, []] := by
  intro t ht
  have : t = [] ∨ t = "2.5".toList ∨ t = "1.5".toList ∨ t = "3.0".toList := by simp at ht ⊢; tauto
  rcases this with rfl | rfl | rfl | rfl
  · simp
  all_goals exact ⟨by decide, by decide, Or.inr ⟨by decide, by decide +kernel, by decide +kernel⟩⟩

/-- C66: an extrusion without direction, and an instance without scale. -/
example : (∃ cs, Extrusion.readPD (exEnv id (1 / 1000)) 7 1 1 [sampleLine "164,1,2.5;"] = .val (⟨1, 5 / 2, 0, 0, 1⟩, [], cs)) ∧
    ∃ cs, SubInstance.readPD (exEnv id (1 / 1000)) 7 1 1 [sampleLine "408,3,1.0,2.0,0.5;"] = .val (⟨3, 1, 2, 1 / 2, 1⟩, [], cs) :=
  ⟨⟨[], by decide +kernel⟩, [], by decide +kernel⟩

example : IsInteger "3".toList 3 ∧ (exEnv id (1 / 1000)).num tok0 = 0 ∧ (exEnv id (1 / 1000)).num tok1 = 1 := by
  refine ⟨⟨by decide, by decide, by decide, by decide⟩, by decide +kernel, by decide +kernel⟩

/-- C66 fails: an empty field for the last direction component of a cylinder makes the reader refuse the record. -/
theorem C66_cylinder_empty_refused :
    Cylinder.readPD (exEnv id (1 / 1000)) 7 1 1 [sampleLine "154,2.5,1.5,,,,,,;"] = .fail := by decide +kernel

/-- C66 fails: the last direction component of an extrusion is one if its field is empty, but zero if the record ends
before it. -/
theorem C66_extrusion_end_wrong : (∃ cs, Extrusion.readPD (exEnv (fun _ => 1) (1 / 1000)) 7 1 1 [sampleLine "164,1,2.5,0.5,0.0;"] =
      .val (⟨1, 5 / 2, 1 / 2, 0, 0⟩, [], cs)) ∧
    ∃ cs, Extrusion.readPD (exEnv (fun _ => 1) (1 / 1000)) 7 1 1 [sampleLine "164,1,2.5,0.5,0.0,;"] =
      .val (⟨1, 5 / 2, 1 / 2, 0, 1⟩, [], cs) := ⟨⟨[], by decide +kernel⟩, [], by decide +kernel⟩

end Iges.Props
