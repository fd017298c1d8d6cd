import Verif.Model.MergeTool
import Verif.Spec.MergeTool
import Verif.Props.IdfInstance
/-
C105: the merge program puts every part where its input says.
-/
namespace Iges.Props.MergeTool
open Iges Iges.MergeTool Iges.MergeTool.Spec Iges.Idf.Spec

/-- C105. The program and the converter of IDF boards place parts by the same rule. -/
theorem C105_same_rule (p : Pos) : getTransform p = Idf.calcTransform p.x p.y p.z (p.zRot * Real.pi / 180) p.flip := by
  obtain ⟨a, f, x, y, z⟩ := p
  obtain ⟨w, hw⟩ : ∃ w, a * Real.pi / 180 = w := ⟨_, rfl⟩
  unfold getTransform Idf.calcTransform
  simp only [hw]
  by_cases h0 : w = 0
  · subst h0
    cases f <;> simp [Mat.mul, Mat.one, rotateX, rotateZ, Idf.rotateY]
  · cases f <;> simp [h0, Mat.mul, Mat.one, rotateX, rotateZ, Idf.rotateY, Idf.rotateZ, Real.cos_add_pi, Real.sin_add_pi]

private theorem normal_clear {v : Point ℝ} (h : Clear v) :
    ∃ k : ℝ, 0 < k ∧ v = ⟨k * (CheckNormal v).x, k * (CheckNormal v).y, k * (CheckNormal v).z⟩ ∧ dot (CheckNormal v) (CheckNormal v) = 1 := by
  obtain ⟨h1, h2⟩ := h
  have hn : ¬ v.x * v.x + v.y * v.y + v.z * v.z < 1 / 10 ^ 12 := by
    have := h1; unfold dot at this; linarith
  have hpos : 0 < v.x * v.x + v.y * v.y + v.z * v.z := lt_of_lt_of_le (by norm_num) (not_lt.mp hn)
  unfold CheckNormal
  simp only [if_neg hn]
  rcases h2 with h2 | h2
  · have h2' : v.x * v.x + v.y * v.y + v.z * v.z = 1 := h2
    have : ¬ (v.x * v.x + v.y * v.y + v.z * v.z - 1 < -(1 / 10 ^ 8) ∨ v.x * v.x + v.y * v.y + v.z * v.z - 1 > 1 / 10 ^ 8) := by
      rw [h2']; norm_num
    rw [if_neg this]
    exact ⟨1, one_pos, by simp, h2⟩
  · have : v.x * v.x + v.y * v.y + v.z * v.z - 1 < -(1 / 10 ^ 8) ∨ v.x * v.x + v.y * v.y + v.z * v.z - 1 > 1 / 10 ^ 8 := by
      have h2' : 1 / 10 ^ 8 < |v.x * v.x + v.y * v.y + v.z * v.z - 1| := h2
      rcases lt_abs.mp h2' with h | h
      · exact .inr h
      · exact .inl (by linarith)
    rw [if_pos this]
    have hs := Real.sqrt_pos.mpr hpos
    have hq := Real.mul_self_sqrt hpos.le
    refine ⟨_, hs, ?_, ?_⟩ <;> generalize Real.sqrt (v.x * v.x + v.y * v.y + v.z * v.z) = l at hs hq <;> have hl := hs.ne'
    · ext <;> simp only <;> field_simp
    · unfold dot
      simp only
      field_simp
      linarith

private theorem turned {t : Turn} (n : Point ℝ) (hn : CheckNormal t.axis = n) (h1 : dot n n = 1) (p : Point ℝ) :
    let c := Real.cos (t.angle * Real.pi / 180)
    let s := Real.sin (t.angle * Real.pi / 180)
    (orientTransform (orientOf t)).act p =
      ⟨c * p.x + s * (n.y * p.z - n.z * p.y) + (1 - c) * dot n p * n.x + t.off.x,
       c * p.y + s * (n.z * p.x - n.x * p.z) + (1 - c) * dot n p * n.y + t.off.y,
       c * p.z + s * (n.x * p.y - n.y * p.x) + (1 - c) * dot n p * n.z + t.off.z⟩ := by
  intro c s
  obtain ⟨h, hh⟩ : ∃ h, Real.pi * t.angle / 360 = h := ⟨_, rfl⟩
  have ha : t.angle * Real.pi / 180 = 2 * h := by rw [← hh]; ring
  have hc : c = 2 * Real.cos h ^ 2 - 1 := by simp only [c, ha, Real.cos_two_mul]
  have hs : s = 2 * Real.sin h * Real.cos h := by simp only [s, ha, Real.sin_two_mul]
  have hcs := Real.sin_sq_add_cos_sq h
  rw [hc, hs]
  have e : 1 - (2 * Real.cos h ^ 2 - 1) = 2 * Real.sin h ^ 2 := by linarith
  rw [e]
  have e' : 2 * Real.cos h ^ 2 - 1 = 1 - 2 * Real.sin h ^ 2 := by linarith
  rw [e']
  unfold dot at *
  simp only [orientTransform, orientOf, Transform.act, Mat.act, Point.add, hn, hh]
  ext <;> simp only
  · linear_combination (-2 * Real.sin h ^ 2 * p.x) * h1
  · linear_combination (-2 * Real.sin h ^ 2 * p.y) * h1
  · linear_combination (-2 * Real.sin h ^ 2 * p.z) * h1

/-- C105. An orientation turns a file by the angle of its line about the direction of its line, counterclockwise, and then moves it by the offset.
Directions that are very short, or whose length is close to one but not one, are left out. -/
theorem C105_orient_partial {t : Turn} (h : Clear t.axis) (p : Point ℝ) :
    ∃ r, TurnedAbout t.axis t.angle p r ∧ (orientTransform (orientOf t)).act p = ⟨r.x + t.off.x, r.y + t.off.y, r.z + t.off.z⟩ := by
  obtain ⟨k, hk, hv, h1⟩ := normal_clear h
  exact ⟨⟨_, _, _⟩, ⟨CheckNormal t.axis, k, hk, hv, h1, rfl, rfl, rfl⟩, turned _ rfl h1 p⟩

private theorem rigid_of_unit {o : Orient} (h : o.w ^ 2 + o.x ^ 2 + o.y ^ 2 + o.z ^ 2 = 1) : Rigid (orientTransform o).act := by
  refine ⟨fun p q => ?_, fun a b c d => ?_⟩
  · simp only [distance2, orientTransform, Transform.act, Mat.act, Point.add]
    linear_combination (-4 * ((o.x * (p.x - q.x) + o.y * (p.y - q.y) + o.z * (p.z - q.z)) ^ 2 -
      (o.x ^ 2 + o.y ^ 2 + o.z ^ 2) * ((p.x - q.x) ^ 2 + (p.y - q.y) ^ 2 + (p.z - q.z) ^ 2))) * h
  · simp only [volume6, orientTransform, Transform.act, Mat.act, Point.add]
    linear_combination (4 * (o.x ^ 2 + o.y ^ 2 + o.z ^ 2) * ((b.x - a.x) * ((c.y - a.y) * (d.z - a.z) - (c.z - a.z) * (d.y - a.y)) -
      (b.y - a.y) * ((c.x - a.x) * (d.z - a.z) - (c.z - a.z) * (d.x - a.x)) +
      (b.z - a.z) * ((c.x - a.x) * (d.y - a.y) - (c.y - a.y) * (d.x - a.x)))) * h

/-- C105. Such an orientation keeps shapes. -/
theorem C105_orient_rigid {t : Turn} (h : Clear t.axis) : Rigid (orientTransform (orientOf t)).act := by
  obtain ⟨-, -, -, h1⟩ := normal_clear h
  apply rigid_of_unit
  unfold dot at h1
  simp only [orientOf]
  linear_combination Real.sin (Real.pi * t.angle / 360) ^ 2 * h1 + Real.sin_sq_add_cos_sq (Real.pi * t.angle / 360)

/-- C105. A direction shorter than a millionth is replaced by the `z` axis. -/
theorem C105_axis_short {t : Turn} (h : dot t.axis t.axis < 1 / 10 ^ 12) (p : Point ℝ) :
    ∃ r, TurnedAbout ⟨0, 0, 1⟩ t.angle p r ∧ (orientTransform (orientOf t)).act p = ⟨r.x + t.off.x, r.y + t.off.y, r.z + t.off.z⟩ := by
  have e : CheckNormal t.axis = ⟨0, 0, 1⟩ := by
    unfold CheckNormal
    unfold dot at h
    simp only [if_pos h]
  have h1 : dot (⟨0, 0, 1⟩ : Point ℝ) ⟨0, 0, 1⟩ = 1 := by unfold dot; norm_num
  exact ⟨⟨_, _, _⟩, ⟨⟨0, 0, 1⟩, 1, one_pos, by simp, h1, rfl, rfl, rfl⟩, turned _ e h1 p⟩

/-- C105. A direction whose length is close to one, but not one, makes an orientation that changes shapes: half a turn about a direction along `x` whose length is
a little more than one. -/
theorem C105_axis_near {k : ℝ} (hk : 1 < k) (hk2 : k * k ≤ 1 + 1 / 10 ^ 8) : ¬ Rigid (orientTransform (orientOf ⟨180, ⟨k, 0, 0⟩, ⟨0, 0, 0⟩⟩)).act := by
  intro h
  have e : CheckNormal (⟨k, 0, 0⟩ : Point ℝ) = ⟨k, 0, 0⟩ := by
    unfold CheckNormal
    simp only
    have a : ¬ k * k + 0 * 0 + 0 * 0 < 1 / 10 ^ 12 := by
      have : (1 : ℝ) / 10 ^ 12 ≤ 1 := by norm_num
      nlinarith
    have b : ¬ (k * k + 0 * 0 + 0 * 0 - 1 < -(1 / 10 ^ 8) ∨ k * k + 0 * 0 + 0 * 0 - 1 > 1 / 10 ^ 8) := by
      rintro (b | b)
      · nlinarith [show (0 : ℝ) < 1 / 10 ^ 8 by norm_num]
      · linarith
    rw [if_neg a, if_neg b]
  have d := h.1 ⟨0, 1, 0⟩ ⟨0, 0, 0⟩
  have ha : Real.pi * 180 / 360 = Real.pi / 2 := by ring
  simp only [distance2, orientTransform, orientOf, e, ha, Real.cos_pi_div_two, Real.sin_pi_div_two, Transform.act, Mat.act, Point.add] at d
  have : k ^ 2 * (k ^ 2 - 1) = 0 := by linear_combination d / 4
  nlinarith [mul_pos (show 0 < k ^ 2 by positivity) (show 0 < k ^ 2 - 1 by nlinarith)]

example : ∃ k : ℝ, 1 < k ∧ k * k ≤ 1 + 1 / 10 ^ 8 := ⟨1 + 1 / 10 ^ 9, by norm_num, by norm_num⟩
example : Clear ⟨1, 0, 0⟩ ∧ Clear ⟨1, 2, -3⟩ := by unfold Clear dot; norm_num
example : dot ⟨0, 0, 0⟩ ⟨0, 0, 0⟩ < (1 : ℝ) / 10 ^ 12 := by unfold dot; norm_num

private theorem split_colon {w t a b : Str} {c : Char} (ht : c ∉ t) (hw : c ∉ w) {k : Str}
    (h : a ++ (k ++ [c]) ++ b = w ++ c :: t) : ∃ v, v ++ k = w := by
  have h' : (a ++ k) ++ c :: b = w ++ c :: t := by simpa using h
  rcases List.append_eq_append_iff.mp h' with ⟨x, e1, e2⟩ | ⟨x, e1, e2⟩
  · cases x with
    | nil => exact ⟨a, by simpa using e1.symm⟩
    | cons d x =>
      simp only [List.cons_append, List.cons.injEq] at e2
      exact absurd (by rw [e1, ← e2.1]; simp) hw
  · cases x with
    | nil => exact ⟨a, by simpa using e1⟩
    | cons d x =>
      simp only [List.cons_append, List.cons.injEq] at e2
      exact absurd (by rw [e2.2]; simp) ht

private theorem dropWhile_pre {P : Char → Bool} {pre r : Str} {c : Char} (hp : ∀ x ∈ pre, P x = true) (hc : P c = false) :
    (pre ++ c :: r).dropWhile P = c :: r := by
  induction pre with
  | nil => simp [hc]
  | cons d l ih =>
    rw [List.cons_append, List.dropWhile_cons_of_pos (hp d (by simp))]
    exact ih fun x hx => hp x (by simp [hx])

private theorem afterFirst_eq {c : Char} {a b : Str} (h : c ∉ a) : afterFirst c (a ++ c :: b) = b := by
  unfold afterFirst
  rw [if_pos (by simp), dropWhile_pre (P := fun x => decide (x ≠ c)) _ (by simp)]
  · rfl
  · intro x hx
    have : x ≠ c := fun e => h (e ▸ hx)
    simpa using this

private theorem beforeLast_eq {c : Char} {a b : Str} (h : c ∉ b) : beforeLast c (a ++ c :: b) = a := by
  unfold beforeLast
  rw [if_pos (by simp)]
  have : (a ++ c :: b).reverse = b.reverse ++ c :: a.reverse := by simp
  rw [this, dropWhile_pre (P := fun x => decide (x ≠ c)) _ (by simp)]
  · simp
  · intro x hx
    have : x ≠ c := fun e => h (by rw [← e]; simpa using hx)
    simpa using this

/-- C105. The name of a file is what is between the first and the last quotation mark of its line; a line without any is taken whole. -/
theorem C105_file_name {a n b : Str} (ha : '"' ∉ a) (hb : '"' ∉ b) : fileName (a ++ '"' :: n ++ '"' :: b) = n ∧ fileName a = a := by
  constructor
  · unfold fileName
    have : a ++ '"' :: n ++ '"' :: b = a ++ '"' :: (n ++ '"' :: b) := by simp
    rw [this, afterFirst_eq ha, beforeLast_eq hb]
  · unfold fileName afterFirst beforeLast
    simp [ha]

private theorem unit_core {pre post : Str} {c d : Char} {m : Str} (h1 : ∀ x ∈ pre, x ∉ "imfkc".toList) (h2 : ∀ x ∈ post, x ∉ "nmtilh".toList)
    (hpc : ':' ∉ "unit".toList) (hc : c ∈ "imfkc".toList) {name : Str} (hn : name = c :: m) {m' : Str} (hn' : name = m' ++ [d])
    (hd : d ∈ "nmtilh".toList) :
    parseUnit ("unit:".toList ++ pre ++ name ++ post) = (unitTable.find? (·.1 = name)).map (·.2) := by
  unfold parseUnit
  have e1 : "unit:".toList ++ pre ++ name ++ post = "unit".toList ++ ':' :: (pre ++ c :: (m ++ post)) := by
    rw [hn]
    have : "unit:".toList = "unit".toList ++ [':'] := by decide
    rw [this]; simp
  rw [e1, afterFirst_eq hpc]
  have e2 : (pre ++ c :: (m ++ post)).dropWhile (fun x => decide (x ∉ "imfkc".toList)) = c :: (m ++ post) :=
    dropWhile_pre (fun x hx => by simpa using h1 x hx) (decide_eq_false (not_not.mpr hc))
  rw [e2]
  have e3 : (c :: (m ++ post)).reverse = post.reverse ++ d :: m'.reverse := by
    have : c :: (m ++ post) = (m' ++ [d]) ++ post := by rw [← hn', hn]; simp
    rw [this]; simp
  have e4 : (post.reverse ++ d :: m'.reverse).dropWhile (fun x => decide (x ∉ "nmtilh".toList)) = d :: m'.reverse :=
    dropWhile_pre (fun x hx => by simpa using h2 x (by simpa using hx)) (decide_eq_false (not_not.mpr hd))
  simp only
  rw [e3, e4]
  have : (d :: m'.reverse).reverse = name := by rw [hn']; simp
  rw [this]

/-- C105. Every name of a unit stands for its unit, whatever blanks are around it. -/
theorem C105_unit {name : String} {u : Int} (h : (name, u) ∈ unitNamed) {pre post : Str} (h1 : pre.all (· ∈ [' ', '\t']))
    (h2 : post.all (· ∈ [' ', '\t', '\r'])) : parseUnit ("unit:".toList ++ pre ++ name.toList ++ post) = some u := by
  have p1 : ∀ x ∈ pre, x ∉ "imfkc".toList := by
    intro x hx
    have := List.all_eq_true.mp h1 x hx
    simp only [List.mem_cons, List.not_mem_nil, or_false, decide_eq_true_eq] at this
    rcases this with rfl | rfl <;> decide
  have p2 : ∀ x ∈ post, x ∉ "nmtilh".toList := by
    intro x hx
    have := List.all_eq_true.mp h2 x hx
    simp only [List.mem_cons, List.not_mem_nil, or_false, decide_eq_true_eq] at this
    rcases this with rfl | rfl | rfl <;> decide
  simp only [unitNamed, List.mem_cons, Prod.mk.injEq, List.not_mem_nil, or_false] at h
  rcases h with ⟨rfl, rfl⟩ | ⟨rfl, rfl⟩ | ⟨rfl, rfl⟩ | ⟨rfl, rfl⟩ | ⟨rfl, rfl⟩ | ⟨rfl, rfl⟩ | ⟨rfl, rfl⟩ | ⟨rfl, rfl⟩ | ⟨rfl, rfl⟩ | ⟨rfl, rfl⟩
  · exact (unit_core (c := 'i') (d := 'n') (m := "n".toList) (m' := "i".toList) (name := "in".toList) p1 p2 (by decide) (by decide) rfl rfl
      (by decide)).trans (by decide)
  · exact (unit_core (c := 'm') (d := 'm') (m := "m".toList) (m' := "m".toList) (name := "mm".toList) p1 p2 (by decide) (by decide) rfl rfl
      (by decide)).trans (by decide)
  · exact (unit_core (c := 'f') (d := 't') (m := "t".toList) (m' := "f".toList) (name := "ft".toList) p1 p2 (by decide) (by decide) rfl rfl
      (by decide)).trans (by decide)
  · exact (unit_core (c := 'm') (d := 'i') (m := "i".toList) (m' := "m".toList) (name := "mi".toList) p1 p2 (by decide) (by decide) rfl rfl
      (by decide)).trans (by decide)
  · exact (unit_core (c := 'm') (d := 'm') (m := "".toList) (m' := "".toList) (name := "m".toList) p1 p2 (by decide) (by decide) rfl rfl
      (by decide)).trans (by decide)
  · exact (unit_core (c := 'k') (d := 'm') (m := "m".toList) (m' := "k".toList) (name := "km".toList) p1 p2 (by decide) (by decide) rfl rfl
      (by decide)).trans (by decide)
  · exact (unit_core (c := 'm') (d := 'l') (m := "il".toList) (m' := "mi".toList) (name := "mil".toList) p1 p2 (by decide) (by decide) rfl rfl
      (by decide)).trans (by decide)
  · exact (unit_core (c := 'm') (d := 'n') (m := "icron".toList) (m' := "micro".toList) (name := "micron".toList) p1 p2 (by decide) (by decide) rfl rfl
      (by decide)).trans (by decide)
  · exact (unit_core (c := 'c') (d := 'm') (m := "m".toList) (m' := "c".toList) (name := "cm".toList) p1 p2 (by decide) (by decide) rfl rfl
      (by decide)).trans (by decide)
  · exact (unit_core (c := 'm') (d := 'h') (m := "icroinch".toList) (m' := "microinc".toList) (name := "microinch".toList) p1 p2 (by decide) (by decide) rfl rfl
      (by decide)).trans (by decide)

private theorem unit_lacks {name : String} {u : Int} (h : (name, u) ∈ unitNamed) {pre post : Str} (h1 : pre.all (· ∈ [' ', '\t']))
    (h2 : post.all (· ∈ [' ', '\t', '\r'])) : lacks ["file:", "pos:", "orient:"] ("unit:".toList ++ pre ++ name.toList ++ post) := by
  have hn : ':' ∉ name.toList := by
    simp only [unitNamed, List.mem_cons, Prod.mk.injEq, List.not_mem_nil, or_false] at h
    rcases h with ⟨rfl, rfl⟩ | ⟨rfl, rfl⟩ | ⟨rfl, rfl⟩ | ⟨rfl, rfl⟩ | ⟨rfl, rfl⟩ | ⟨rfl, rfl⟩ | ⟨rfl, rfl⟩ | ⟨rfl, rfl⟩ | ⟨rfl, rfl⟩ | ⟨rfl, rfl⟩ <;> decide
  have hp : ':' ∉ pre := fun hx => absurd (List.all_eq_true.mp h1 _ hx) (by decide)
  have hq : ':' ∉ post := fun hx => absurd (List.all_eq_true.mp h2 _ hx) (by decide)
  have ht : ':' ∉ pre ++ name.toList ++ post := by simp [hn, hp, hq]
  have e : "unit:".toList ++ pre ++ name.toList ++ post = "unit".toList ++ ':' :: (pre ++ name.toList ++ post) := by
    have : "unit:".toList = "unit".toList ++ [':'] := by decide
    rw [this]; simp
  have len : ∀ k : Str, (∃ v, v ++ k = "unit".toList) → k <:+ "unit".toList := fun k ⟨v, hv⟩ => ⟨v, hv⟩
  intro k hk
  simp only [List.mem_cons, List.not_mem_nil, or_false] at hk
  rw [e]
  rintro ⟨a, b, hab⟩
  rcases hk with rfl | rfl | rfl
  · exact absurd (len "file".toList (split_colon (c := ':') ht (by decide) (a := a) (b := b) (k := "file".toList) hab)) (by decide)
  · exact absurd (len "pos".toList (split_colon (c := ':') ht (by decide) (a := a) (b := b) (k := "pos".toList) hab)) (by decide)
  · exact absurd (len "orient".toList (split_colon (c := ':') ht (by decide) (a := a) (b := b) (k := "orient".toList) hab)) (by decide)

private noncomputable def next (st : State) : Entry → State
  | .file n => { st with models := st.models ++ [(n, [])] }
  | .pos p => { st with models := pushPos st.models p }
  | .unit u => { st with unit := some (st.unit.getD u) }
  | .orient t =>
    match st.models.getLast? with
    | none => st
    | some m => { st with orients := if (st.orients.getLast?.map (·.1)) = some m.1 then st.orients else st.orients ++ [(m.1, orientOf t)] }
  | .nothing => st

private theorem parse_next {num : Numbers} {s : Str} {e : Entry} (h : Means num s e) (st : State) : parseLine num st s = next st e := by
  have hl : ∀ {ks : List String} {s : Str}, lacks ks s → ∀ k ∈ ks, ¬ has k s := fun h k hk => h k hk
  cases h with
  | @file a n b h e ha hb =>
    unfold parseLine
    rw [if_pos (show has "file:" s from h)]
    subst e
    simp only [next, (C105_file_name ha hb).1]
  | pos h hk hp =>
    have l := hl hk
    unfold parseLine
    rw [if_neg (l "file:" (by simp))]
    by_cases hm : st.models = []
    · rw [if_neg (by simp [hm]), if_neg fun x => l "unit:" (by simp) x.1, if_neg fun x => l "orient:" (by simp) x.1]
      obtain ⟨m, o, u⟩ := st
      obtain rfl : m = [] := hm
      rfl
    · rw [if_pos ⟨h, hm⟩, hp]
      rfl
  | @unit pre name post u e hn h1 h2 =>
    subst e
    have l := hl (unit_lacks hn h1 h2)
    have hu : has "unit:" ("unit:".toList ++ pre ++ name.toList ++ post) := ⟨[], pre ++ name.toList ++ post, by simp⟩
    unfold parseLine
    rw [if_neg (l "file:" (by simp)), if_neg fun x => l "pos:" (by simp) x.1]
    cases hs : st.unit with
    | none =>
      rw [if_pos ⟨hu, rfl⟩, C105_unit hn h1 h2]
      simp [next, hs]
    | some v =>
      rw [if_neg (by simp), if_neg fun x => l "orient:" (by simp) x.1]
      simp only [next, hs, Option.getD_some]
      rw [← hs]
  | orient h hk ht =>
    have l := hl hk
    unfold parseLine
    rw [if_neg (l "file:" (by simp)), if_neg fun x => l "pos:" (by simp) x.1, if_neg fun x => l "unit:" (by simp) x.1]
    by_cases hm : st.models = []
    · rw [if_neg (by simp [hm])]
      simp [next, hm]
    · rw [if_pos ⟨h, hm⟩]
      simp only [next, parseOrient, ht]
      cases st.models.getLast? <;> rfl
  | other hk =>
    have l := hl hk
    unfold parseLine
    rw [if_neg (l "file:" (by simp)), if_neg fun x => l "pos:" (by simp) x.1, if_neg fun x => l "unit:" (by simp) x.1,
      if_neg fun x => l "orient:" (by simp) x.1]
    rfl
  | badPos h hk hp =>
    have l := hl hk
    unfold parseLine
    simp only [if_neg (l "file:" (by simp)), hp, next, l "unit:" (by simp), l "orient:" (by simp), false_and, if_false, ite_self]
  | badOrient h hk ht =>
    have l := hl hk
    unfold parseLine
    rw [if_neg (l "file:" (by simp)), if_neg fun x => l "pos:" (by simp) x.1, if_neg fun x => l "unit:" (by simp) x.1]
    simp only [next]
    split
    · cases hm : st.models.getLast? with
      | none => rfl
      | some m => simp [parseOrient, ht]
    · rfl

private theorem line_next {num : Numbers} {s : Str} {e : Entry} (h : Means num s e) (st : State) :
    (if s = [] then st else parseLine num st s) = next st e := by
  split
  · rename_i hs
    rw [← parse_next h st]
    subst hs
    have : ∀ k : String, k.toList ≠ [] → ¬ has k [] := fun k hk hx => hk (List.eq_nil_of_infix_nil hx)
    unfold parseLine
    rw [if_neg (this _ (by decide)), if_neg fun x => this "pos:" (by decide) x.1, if_neg fun x => this "unit:" (by decide) x.1,
      if_neg fun x => this "orient:" (by decide) x.1]
  · exact parse_next h st

private theorem fold_next {num : Numbers} {lines : List Str} {es : List Entry} (h : List.Forall₂ (Means num) lines es) (st : State) :
    lines.foldl (fun st s => if s = [] then st else parseLine num st s) st = es.foldl next st := by
  induction h generalizing st with
  | nil => rfl
  | cons h _ ih => simp only [List.foldl_cons, line_next h]; exact ih _

private def flat (ms : List (Str × List Pos)) : List (Str × Pos) := ms.flatMap fun m => m.2.map fun p => (m.1, p)

private theorem last_split {α : Type} {l : List α} {m : α} (h : l.getLast? = some m) : l = l.dropLast ++ [m] :=
  (List.dropLast_append_getLast? m h).symm

private theorem fold_models (es : List Entry) (st : State) :
    flat (es.foldl next st).models = flat st.models ++ placed (st.models.getLast?.map (·.1)) es := by
  induction es generalizing st with
  | nil => simp [placed]
  | cons e es ih =>
    rw [List.foldl_cons, ih]
    cases e with
    | file n => simp [next, flat, placed]
    | pos p =>
      cases hm : st.models.getLast? with
      | none => simp [next, pushPos, hm, placed]
      | some m =>
        have hs := last_split hm
        simp only [next, pushPos, hm, Option.map_some, placed]
        rw [hs]
        simp [flat]
    | unit u => cases hm : st.models.getLast? <;> simp [next, hm, placed]
    | orient t => cases hm : st.models.getLast? <;> simp [next, hm, placed]
    | nothing => cases hm : st.models.getLast? <;> simp [next, hm, placed]

private theorem fold_unit (es : List Entry) (st : State) : (es.foldl next st).unit.getD 2 = st.unit.getD (unitOf es) := by
  induction es generalizing st with
  | nil => simp [unitOf]
  | cons e es ih =>
    rw [List.foldl_cons, ih]
    cases e <;> simp only [next, unitOf, Option.getD_some]
    cases st.models.getLast? <;> rfl

private theorem fold_orient (n : Str) (es : List Entry) (st : State) :
    ((es.foldl next st).orients.find? (·.1 = n)).map (·.2) =
      ((st.orients.find? (·.1 = n)).map (·.2)).or ((turnOf n (st.models.getLast?.map (·.1)) es).map orientOf) := by
  induction es generalizing st with
  | nil => simp [turnOf]
  | cons e es ih =>
    rw [List.foldl_cons, ih]
    cases e with
    | file m => simp [next, turnOf]
    | pos p =>
      cases hm : st.models.getLast? with
      | none => simp [next, pushPos, hm, turnOf]
      | some m => simp [next, pushPos, hm, turnOf]
    | unit u => cases hm : st.models.getLast? <;> simp [next, hm, turnOf]
    | nothing => cases hm : st.models.getLast? <;> simp [next, hm, turnOf]
    | orient t =>
      cases hm : st.models.getLast? with
      | none => simp [next, hm, turnOf]
      | some m =>
        simp only [next, hm, Option.map_some, turnOf]
        by_cases hn : m.1 = n
        · rw [if_pos hn]
          split
          · rename_i ho
            obtain ⟨o, ho1, ho2⟩ := Option.map_eq_some_iff.mp ho
            have : (st.orients.find? (·.1 = n)).isSome := by
              rw [List.find?_isSome]
              exact ⟨o, List.mem_of_getLast? ho1, by simp [ho2, hn]⟩
            obtain ⟨q, hq⟩ := Option.isSome_iff_exists.mp this
            simp [hq]
          · rw [List.find?_append]
            cases st.orients.find? (·.1 = n) <;> simp [hn]
        · rw [if_neg hn]
          split
          · rfl
          · rw [List.find?_append]
            cases st.orients.find? (·.1 = n) <;> simp [hn]

private theorem fold_empty (es : List Entry) (st : State) : (es.foldl next st).models = [] ↔ st.models = [] ∧ ∀ n, Entry.file n ∉ es := by
  induction es generalizing st with
  | nil => simp
  | cons e es ih =>
    rw [List.foldl_cons, ih]
    have hp : ∀ l p, pushPos l p = [] ↔ l = [] := by
      intro l p
      unfold pushPos
      cases h : l.getLast? with
      | none => rfl
      | some m => 
        have : l ≠ [] := by rintro rfl; simp at h
        simp [this]
    cases e with
    | file m => simp [next]; intro h; exact ⟨m, fun h => absurd rfl h⟩
    | pos p => simp [next, hp]
    | unit u => simp [next]
    | nothing => simp [next]
    | orient t => cases hm : st.models.getLast? <;> simp [next, hm]

private noncomputable def made (os : List (Str × Orient)) (x : Str × Pos) : Shown :=
  ⟨x.1, match (os.find? (·.1 = x.1)).map fun o => orientTransform o.2 with
    | none => getTransform x.2
    | some o => (getTransform x.2).mul o⟩

private theorem merge_all {good : Str → Bool} {os : List (Str × Orient)} (ms : List (Str × List Pos)) :
    mergeAll good os ms = if ∀ x ∈ flat ms, good x.1 = true then some ((flat ms).map (made os)) else none := by
  induction ms with
  | nil => simp [mergeAll, flat]
  | cons m ms ih =>
    obtain ⟨n, ps⟩ := m
    have hf : flat ((n, ps) :: ms) = ps.map (fun p => (n, p)) ++ flat ms := rfl
    simp only [mergeAll, merge, hf]
    by_cases hps : ps = []
    · subst hps
      simp only [if_true, ih, List.map_nil, List.nil_append]
      split <;> simp
    · rw [if_neg hps]
      obtain ⟨q, l, rfl⟩ := List.exists_cons_of_ne_nil hps
      cases hg : good n with
      | false => simp [hg]
      | true =>
        simp only [ih, reduceCtorEq, if_false]
        by_cases ha : ∀ x ∈ flat ms, good x.1 = true
        · rw [if_pos ha, if_pos]
          · cases ho : os.find? (·.1 = n) <;> simp [made, ho]
          · intro x hx
            rcases List.mem_append.mp hx with hx | hx
            · obtain ⟨p, -, rfl⟩ := List.mem_map.mp hx
              exact hg
            · exact ha x hx
        · rw [if_neg ha, if_neg]
          · simp
          · exact fun h => ha fun x hx => h x (List.mem_append_right _ hx)

private theorem act_mul (m n : Transform ℝ) (p : Point ℝ) : (m.mul n).act p = m.act (n.act p) := by
  ext <;> simp only [Transform.mul, Transform.act, Mat.act, Mat.mul, Point.add] <;> ring

open Classical in
private theorem run_eq {num : Numbers} {good : Str → Bool} {lines : List Str} {es : List Entry} (h : List.Forall₂ (Means num) lines es) :
    run num good lines = if (∃ n, Entry.file n ∈ es) ∧ ∀ x ∈ placed none es, good x.1 = true
      then some (unitOf es, (placed none es).map (made (es.foldl next ⟨[], [], none⟩).orients)) else none := by
  unfold run
  simp only [fold_next h, fold_unit, merge_all, fold_models]
  by_cases he : ∃ n, Entry.file n ∈ es
  · have hne : (es.foldl next ⟨[], [], none⟩).models ≠ [] := by
      rw [Ne, fold_empty]
      obtain ⟨n, hn⟩ := he
      exact fun h => h.2 n hn
    rw [if_neg hne]
    by_cases hg : ∀ x ∈ placed none es, good x.1 = true
    · simp only [flat, List.flatMap_nil, List.nil_append, List.getLast?_nil, Option.map_none]
      rw [if_pos hg, if_pos ⟨he, hg⟩]
      rfl
    · simp only [flat, List.flatMap_nil, List.nil_append, List.getLast?_nil, Option.map_none]
      rw [if_neg hg, if_neg fun x => hg x.2]
      rfl
  · have hne : (es.foldl next ⟨[], [], none⟩).models = [] := by
      rw [fold_empty]
      exact ⟨rfl, fun n hn => he ⟨n, hn⟩⟩
    rw [if_pos hne, if_neg fun x => he x.1]

/-- C105. When the input names a file, and every file that is placed can be read, the result has the unit that was asked for and, in their order, one
instance for every position; every point of its file comes to where the lines say, and its shape is kept.  Directions of orientations are those of
C105_orient_partial. -/
theorem C105_merged_partial {num : Numbers} {good : Str → Bool} {lines : List Str} {es : List Entry} (h : List.Forall₂ (Means num) lines es)
    (hf : ∃ n, Entry.file n ∈ es) (hg : ∀ x ∈ placed none es, good x.1 = true)
    (hc : ∀ x ∈ placed none es, ∀ t, turnOf x.1 none es = some t → Clear t.axis) :
    ∃ l, run num good lines = some (unitOf es, l) ∧
      List.Forall₂ (fun x i => i.file = x.1 ∧ Rigid i.tx.act ∧ ∀ p, Comes (turnOf x.1 none es) x.2 p (i.tx.act p)) (placed none es) l := by
  refine ⟨_, by rw [run_eq h, if_pos ⟨hf, hg⟩], ?_⟩
  rw [List.forall₂_map_right_iff, List.forall₂_same]
  intro x hx
  have c86 := Idf.Placed.C86_transform 0 x.2.x x.2.y x.2.z x.2.zRot (if x.2.flip then .bottom else .top)
  have hb : decide ((if x.2.flip = true then Idf.Side.bottom else Idf.Side.top) = Idf.Side.bottom) = x.2.flip := by cases x.2.flip <;> rfl
  simp only [add_zero, hb, ← C105_same_rule] at c86
  have ho := fold_orient x.1 es ⟨[], [], none⟩
  simp only [List.find?_nil, Option.map_none, List.getLast?_nil, Option.none_or] at ho
  refine ⟨rfl, ?_⟩
  have hm : (((es.foldl next ⟨[], [], none⟩).orients.find? (·.1 = x.1)).map fun o => orientTransform o.2) =
      (turnOf x.1 none es).map fun t => orientTransform (orientOf t) := by
    have := congrArg (Option.map orientTransform) ho
    simpa [Option.map_map, Function.comp_def] using this
  simp only [made, hm]
  cases ht : turnOf x.1 none es with
  | none => exact ⟨c86.2, fun p => ⟨p, p, rfl, c86.1 p⟩⟩
  | some t =>
    have hcl := hc x hx t ht
    have hr := C105_orient_rigid hcl
    simp only [Option.map_some]
    refine ⟨⟨fun p q => ?_, fun a b c d => ?_⟩, fun p => ?_⟩
    · rw [act_mul, act_mul, c86.2.1, hr.1]
    · rw [act_mul, act_mul, act_mul, act_mul, c86.2.2, hr.2]
    · obtain ⟨r, h1, h2⟩ := C105_orient_partial hcl p
      refine ⟨_, r, ⟨h1, rfl⟩, ?_⟩
      rw [act_mul, h2]
      exact c86.1 _

/-- C105. Nothing is written when no file is named, or when a file that is placed cannot be read. -/
theorem C105_nothing {num : Numbers} {good : Str → Bool} {lines : List Str} {es : List Entry} (h : List.Forall₂ (Means num) lines es)
    (hb : (∀ n, Entry.file n ∉ es) ∨ ∃ x ∈ placed none es, good x.1 = false) : run num good lines = none := by
  rw [run_eq h, if_neg]
  rintro ⟨⟨n, hn⟩, hg⟩
  rcases hb with hb | ⟨x, hx, hb⟩
  · exact hb n hn
  · rw [hg x hx] at hb; cases hb

/-- Every line of a small input means what it should: a unit, a file, its orientation and two positions, of which one is at the bottom. -/
example : ∃ (num : Numbers) (lines : List Str) (es : List Entry), List.Forall₂ (Means num) lines es ∧ (∃ n, Entry.file n ∈ es) ∧
    (placed none es).length = 2 ∧ unitOf es = 1 ∧ ∀ x ∈ placed none es, ∃ t, turnOf x.1 none es = some t ∧ Clear t.axis := by
  refine ⟨⟨fun s => if s = "pos: 90,1,2,3,4;".toList then some ⟨90, true, 2, 3, 4⟩ else some ⟨0, false, 1, 1, 1⟩,
    fun _ => some ⟨-90, ⟨1, 0, 0⟩, ⟨0, 0, 1⟩⟩⟩,
    ["unit: in".toList, "file: \"a.igs\"".toList, "orient: -90,1,0,0,0,0,1;".toList, "pos: 90,1,2,3,4;".toList, "pos: 0,0,1,1,1;".toList],
    [.unit 1, .file "a.igs".toList, .orient ⟨-90, ⟨1, 0, 0⟩, ⟨0, 0, 1⟩⟩, .pos ⟨90, true, 2, 3, 4⟩, .pos ⟨0, false, 1, 1, 1⟩],
    ?_, ⟨"a.igs".toList, by simp⟩, by simp [placed], by simp [unitOf], ?_⟩
  · refine .cons (.unit (pre := [' ']) (name := "in") (post := []) (by decide) (by decide) (by decide) (by decide))
      (.cons (.file (a := "file: ".toList) (b := []) (by decide) (by decide) (by decide) (by decide)) (.cons (.orient (by decide) ?_ rfl)
        (.cons (.pos (by decide) ?_ ?_) (.cons (.pos (by decide) ?_ ?_) .nil))))
    pick_goal 3
    · simp
    pick_goal 4
    · simp
    all_goals (intro k hk; simp only [List.mem_cons, List.not_mem_nil, or_false] at hk; rcases hk with rfl | rfl | rfl <;> decide)
  · intro x hx
    simp only [placed, List.mem_cons, List.not_mem_nil, or_false] at hx
    refine ⟨⟨-90, ⟨1, 0, 0⟩, ⟨0, 0, 1⟩⟩, ?_, by unfold Clear dot; norm_num⟩
    rcases hx with rfl | rfl <;> simp [turnOf]

end Iges.Props.MergeTool
