import Verif.Model.Entities
import Verif.Lemmas.Entity
import Verif.Spec.Entities
/-
Reading one parameter after the other: rules for the bodies of the `readPD` functions.
-/
namespace Iges
open Props

/-- A parameter reader succeeds with a value satisfying `R` and leaves `rest` to read. -/
def Reads {α : Type} (T : Str) (s : Src) (rest : List Param) (R : α → Prop) (x : Rd (α × Cur)) : Prop :=
  ∃ a c', x = .val (a, c') ∧ R a ∧ Ready T s c' rest

section
variable {E : PdEnv} {α : Type} {T : Str} {s : Src} {c : Cur} {ps rest : List Param} {R : α → Prop}

theorem Reads.ret {a : α} (h : Ready T s c rest) (hR : R a) : Reads T s rest R (pure (a, c)) :=
  ⟨a, c, rfl, hR, h⟩

theorem Reads.real (hE : E.Ok) (hs : SrcOf E s) {x r : ℚ} {d : Option RealTok} {f : ℚ × Cur → Rd (α × Cur)}
    (h : Ready T s c (.real (realText E.est r x) :: ps)) (hr : 0 < r) (hx : |x| ≤ 10 ^ (300 : ℤ))
    (hf : ∀ y c', Spec.Near r x y → Ready T s c' ps → Reads T s rest R (f (y, c'))) :
    Reads T s rest R (s.real c d >>= f) := by
  obtain ⟨y, c', e, hn, h'⟩ := h.real hE hs d hr hx
  rw [e, Rd.val_bind]
  exact hf y c' hn h'

/-- As `Reads.real`, with the value read given as the conversion of the text. -/
theorem Reads.realVal (hE : E.Ok) (hs : SrcOf E s) {x r : ℚ} {d : Option RealTok} {f : ℚ × Cur → Rd (α × Cur)}
    (h : Ready T s c (.real (realText E.est r x) :: ps)) (hr : 0 < r) (hx : |x| ≤ 10 ^ (300 : ℤ))
    (hf : ∀ y c', Spec.Near r x y → y = E.num (strtod (dToE (realText E.est r x))).val → Ready T s c' ps →
      Reads T s rest R (f (y, c'))) :
    Reads T s rest R (s.real c d >>= f) := by
  have ok := hs.ok hE
  obtain ⟨hw, hnear⟩ := realText_ok hE.est hE.num hr hx hE.pd hE.rd
  obtain ⟨d', hd, hat, _, he⟩ := h.split ok
  obtain ⟨i', e1, hat'⟩ := hat.sReal (e := c.eor) (dflt := d) ok hd (by rw [hs.pd, hs.rd]; exact hw)
  rw [show s.real c d = _ from e1, Rd.val_bind]
  exact hf _ _ (by rw [hs.num]; exact hnear) (by rw [hs.num]) ⟨hat', he⟩

theorem Reads.realOr (hE : E.Ok) (hs : SrcOf E s) {x r v : ℚ} {d : Option RealTok} {f : ℚ × Cur → Rd (α × Cur)}
    (h : Ready T s c (.real (realText E.est r x) :: ps)) (hr : 0 < r) (hx : |x| ≤ 10 ^ (300 : ℤ))
    (hf : ∀ y c', Spec.Near r x y → Ready T s c' ps → Reads T s rest R (f (y, c'))) :
    Reads T s rest R (s.realOr c d v >>= f) := by
  have : s.realOr c d v = s.real c d := by simp [Src.realOr, h.eor]
  rw [this]
  exact Reads.real hE hs h hr hx hf

theorem Reads.int (hE : E.Ok) (hs : SrcOf E s) {n : Int} {d : Option Int} {f : Int × Cur → Rd (α × Cur)}
    (h : Ready T s c (.int n :: ps)) (hn : -2147483648 ≤ n ∧ n ≤ 2147483647)
    (hf : ∀ c', Ready T s c' ps → Reads T s rest R (f (n, c'))) :
    Reads T s rest R (s.int c d >>= f) := by
  obtain ⟨c', e, h'⟩ := h.int (hs.ok hE) (dflt := d) hn
  rw [e, Rd.val_bind]
  exact hf c' h'

theorem Reads.str (hE : E.Ok) (hs : SrcOf E s) {t : Str} {f : Str × Cur → Rd (α × Cur)}
    (h : Ready T s c (.str t :: ps))
    (hf : ∀ c', Ready T s c' ps → Reads T s rest R (f (t, c'))) :
    Reads T s rest R (s.hstr c >>= f) := by
  obtain ⟨c', e, h'⟩ := h.str (hs.ok hE)
  rw [e, Rd.val_bind]
  exact hf c' h'

theorem Reads.need {p : Prop} [Decidable p] {f : Unit → Rd (α × Cur)} (hp : p)
    (hf : Reads T s rest R (f ())) : Reads T s rest R (Rd.need p >>= f) := by
  rw [Rd.need_true hp, Rd.val_bind]
  exact hf

end

/-! ### Groups of one item each -/

theorem realGroups_flatten (pd last : Char) (r : ℚ) : ∀ xs : List ℚ,
    (realGroups pd last r xs).flatten = closeItems pd last (xs.map (Item.real · r))
  | [] => rfl
  | [_] => rfl
  | x :: y :: xs => by
    have := realGroups_flatten pd last r (y :: xs)
    simp only [realGroups, List.flatten_cons, this, List.map_cons, closeItems, List.singleton_append]

theorem realGroups_ok (pd last : Char) {r : ℚ} (hr : 0 < r) : ∀ xs : List ℚ, (∀ x ∈ xs, |x| ≤ 10 ^ (300 : ℤ)) →
    ∀ g ∈ realGroups pd last r xs, GroupOk g
  | [], _, g, hg => by simp [realGroups] at hg
  | [x], hx, g, hg => by
    simp only [realGroups, List.mem_singleton] at hg
    exact Or.inl ⟨_, _, hg, hr, hx x (by simp)⟩
  | x :: y :: xs, hx, g, hg => by
    simp only [realGroups, List.mem_cons] at hg
    rcases hg with rfl | hg
    · exact Or.inl ⟨_, _, rfl, hr, hx x (by simp)⟩
    · exact realGroups_ok pd last hr (y :: xs) (fun z hz => hx z (List.mem_cons_of_mem _ hz)) g hg

theorem roomFor_extras_le (xs : List ExtraRef) : roomFor (extrasOf xs) ≤ 2 * xs.length + 4 := by
  have hsum : ∀ l : List Int, ((l.map Param.int).map Param.cost).sum = 2 * l.length := by
    intro l
    induction l with
    | nil => rfl
    | cons a l ih => simp only [List.map_cons, List.sum_cons, ih, Param.cost, List.length_cons]; omega
  have hAB : (secA xs).length + (secB xs).length ≤ xs.length := by
    induction xs with
    | nil => simp [secA, secB]
    | cons a l ih =>
      simp only [secA, secB, List.filter_cons, List.length_map, List.length_cons] at *
      split <;> split <;> simp_all <;> omega
  unfold extrasOf
  split
  · simp [roomFor]
  · unfold extraParams roomFor
    split
    · simp only [List.map_cons, List.sum_cons, hsum, Param.cost]; omega
    · split
      · simp only [List.map_cons, List.sum_cons, hsum, Param.cost]; omega
      · simp only [List.map_cons, List.map_append, List.sum_append, List.sum_cons, hsum, Param.cost]; omega

/-- A cycle with at most `m` lines is one with at most `n ≥ m` lines. -/
theorem PdCycle.mono {β : Type} {m n : Nat} {de i0 : Int} {fmt : Rd (Str × Int)} {read : Int → Int → List Str → Rd β}
    {R : β → Prop} (h : Spec.PdCycle m de i0 fmt read R) (hm : m ≤ n) : Spec.PdCycle n de i0 fmt read R := by
  obtain ⟨datas, h1, h2, h3⟩ := h
  exact ⟨datas, h1, h2.trans hm, h3⟩

/-- The cycle of an entity, from `pd_roundtrip`. -/
theorem pdCycleX {E : PdEnv} (hE : E.Ok) {de i0 etype limit : Int} {pre : List Int} {items : List Item}
    {groups : List (List (Item × Char))} {xs : List ExtraRef} {α : Type} {R : α → Prop} {most : Nat}
    {body : Src → Cur → Rd (α × Cur)}
    (hde : 1 ≤ de ∧ de ≤ 9999999) (het : 100 ≤ etype ∧ etype ≤ 999)
    (hfit : (preText E.pd (etype :: pre)).length ≤ 64)
    (hitems : items ≠ []) (hok : ∀ it ∈ items, it.Ok)
    (hgroups : ∀ g ∈ groups, GroupOk g)
    (hflat : groups.flatten = closeItems E.pd (E.last xs) items)
    (hx : ExtrasOk xs) (hlim : 1 ≤ i0 ∧ i0 ≤ limit)
    (hroom : i0 + (most : Nat) ≤ 9999999) (hmost : (items.map Item.cost).sum + 2 * xs.length + 4 ≤ most)
    (hbody : ∀ T s c, SrcOf E s → Ready T s c (pre.map Param.int ++ (items.map (Item.param E) ++ extrasOf xs)) →
      Reads T s (extrasOf xs) R (body s c)) :
    Spec.PdCycle most de i0 (formatPD E de (etype :: pre) groups xs [] limit i0)
      (fun a b ls => readPDWith E etype de a b ls body)
      (fun r => R r.1 ∧ r.2.1 = secA xs ++ secB xs ∧ r.2.2 = []) := by
  have := roomFor_extras_le xs
  have hle : roomOf items xs ≤ most := by unfold roomOf; omega
  obtain ⟨n, datas, hf, hn, hpos, hn', h64, hnl, a, hR, hr⟩ := pd_roundtrip hE (limit := limit) (R := R) (body := body)
    hde het hfit hitems hok hgroups hflat hx hlim (by omega) hbody
  refine ⟨datas, ?_, by omega, fun d hd => ⟨h64 d hd, hnl d hd⟩, by rw [hf, hn], (a, secA xs ++ secB xs, []), ⟨hR, rfl, rfl⟩, fun more => ?_⟩
  · rintro rfl; simp at hpos
  · rw [← hr more, hn]
    congr 1
    omega

/-- The same with a body that does not depend on what follows. -/
theorem pdCycle {E : PdEnv} (hE : E.Ok) {de i0 etype limit : Int} {pre : List Int} {items : List Item}
    {groups : List (List (Item × Char))} {xs : List ExtraRef} {α : Type} {R : α → Prop} {most : Nat}
    {body : Src → Cur → Rd (α × Cur)}
    (hde : 1 ≤ de ∧ de ≤ 9999999) (het : 100 ≤ etype ∧ etype ≤ 999)
    (hfit : (preText E.pd (etype :: pre)).length ≤ 64)
    (hitems : items ≠ []) (hok : ∀ it ∈ items, it.Ok)
    (hgroups : ∀ g ∈ groups, GroupOk g)
    (hflat : groups.flatten = closeItems E.pd (E.last xs) items)
    (hx : ExtrasOk xs) (hlim : 1 ≤ i0 ∧ i0 ≤ limit)
    (hroom : i0 + (most : Nat) ≤ 9999999) (hmost : (items.map Item.cost).sum + 2 * xs.length + 4 ≤ most)
    (hbody : ∀ T s c rest, SrcOf E s → Ready T s c (pre.map Param.int ++ (items.map (Item.param E) ++ rest)) →
      Reads T s rest R (body s c)) :
    Spec.PdCycle most de i0 (formatPD E de (etype :: pre) groups xs [] limit i0)
      (fun a b ls => readPDWith E etype de a b ls body)
      (fun r => R r.1 ∧ r.2.1 = secA xs ++ secB xs ∧ r.2.2 = []) :=
  pdCycleX hE hde het hfit hitems hok hgroups hflat hx hlim hroom hmost fun T s c hs h => hbody T s c _ hs h

/-- A check or conversion after reading. -/
theorem pdCycle_bind {β γ : Type} {most : Nat} {de i0 : Int} {fmt : Rd (Str × Int)} {read : Int → Int → List Str → Rd β}
    {R : β → Prop} {f : β → Rd γ} {R' : γ → Prop} (h : Spec.PdCycle most de i0 fmt read R)
    (hf : ∀ b, R b → ∃ c, f b = .val c ∧ R' c) :
    Spec.PdCycle most de i0 fmt (fun x y ls => read x y ls >>= f) R' := by
  obtain ⟨datas, h1, hm, h2, h3, b, hb, h4⟩ := h
  obtain ⟨c, hc, hc'⟩ := hf b hb
  exact ⟨datas, h1, hm, h2, h3, c, hc', fun more => by
    show (read _ _ _ >>= f) = _
    rw [h4 more, Rd.val_bind, hc]⟩

/-- The common hypotheses for writing an entity: legal surroundings, a DE number, legal optional
pointers, and room in the section for the lines of the entity. -/
structure Setting (E : PdEnv) (de i0 : Int) (xs : List ExtraRef) (lines : Nat) : Prop where
  env : E.Ok
  de : 1 ≤ de ∧ de ≤ 9999999
  extras : ExtrasOk xs
  first : 1 ≤ i0
  room : i0 + (lines + 2 * xs.length + 4 : Nat) ≤ 9999999

theorem intStr_small {n : Int} (h : 0 ≤ n) {k : Nat} (hk : n < 10 ^ k) (k0 : 0 < k) : (intStr n).length ≤ k := by
  obtain ⟨m, rfl⟩ := Int.eq_ofNat_of_zero_le h
  exact natStr_length_le k0 (by exact_mod_cast hk)

theorem preText_length (pd : Char) : ∀ (ns : List Int) (k : Nat), 0 < k → (∀ n ∈ ns, 0 ≤ n ∧ n < 10 ^ k) →
    (preText pd ns).length ≤ ns.length * (k + 1)
  | [], _, _, _ => by simp [preText]
  | n :: ns, k, k0, h => by
    have h1 := intStr_small (h n (by simp)).1 (h n (by simp)).2 k0
    have h2 := preText_length pd ns k k0 (fun m hm => h m (List.mem_cons_of_mem _ hm))
    simp only [preText, List.length_append, List.length_cons, Nat.add_mul] at *
    omega

/-! ### Normals -/

/-- `sqrt` returns positive values whose square is the argument up to one unit of the 15th digit. -/
def SqrtOk (sqrt : ℚ → ℚ) : Prop := ∀ v, 0 < v → 0 < sqrt v ∧ |sqrt v * sqrt v - v| ≤ v / 10 ^ 15

theorem sqrt_bound {s d h : ℚ} (s0 : 0 < s) (s1 : -(1 / 10 ^ 14) ≤ s * s - d) (s2 : s * s - d ≤ 1 / 10 ^ 14)
    (h1 : 1 - h ≤ d) (h2 : d ≤ 1 + h) (hh : h ≤ 7 / 100) : 9 / 10 ≤ s ∧ |s - 1| ≤ (h + 1 / 10 ^ 14) * (10 / 19) := by
  have h9 : 9 / 10 ≤ s := by
    by_contra hc
    push Not at hc
    have := mul_lt_mul'' hc hc s0.le s0.le
    norm_num at *
    linarith
  refine ⟨h9, ?_⟩
  have e : |s - 1| * (s + 1) = |s * s - 1| := by
    rw [← abs_of_pos (show 0 < s + 1 by linarith), ← abs_mul]
    congr 1
    ring
  have hb : |s * s - 1| ≤ h + 1 / 10 ^ 14 := abs_le.mpr ⟨by linarith, by linarith⟩
  have h3 : |s - 1| * (19 / 10) ≤ |s - 1| * (s + 1) := mul_le_mul_of_nonneg_left (by linarith) (abs_nonneg _)
  rw [e] at h3
  generalize |s - 1| = t at *
  linarith

/-- A unit vector whose components moved by at most `e` is normalised to nearly the same vector. -/
theorem checkNormalQ_near {sqrt : ℚ → ℚ} (hs : SqrtOk sqrt) {p q : Point ℚ} {e : ℚ} (he : 0 ≤ e) (he' : e ≤ 1 / 100)
    (hp : |p.x * p.x + p.y * p.y + p.z * p.z - 1| ≤ 1 / 10 ^ 8)
    (hx : |q.x - p.x| ≤ e) (hy : |q.y - p.y| ≤ e) (hz : |q.z - p.z| ≤ e) :
    |(CheckNormalQ sqrt q).x - p.x| ≤ 8 * e + 1 / 10 ^ 7 ∧ |(CheckNormalQ sqrt q).y - p.y| ≤ 8 * e + 1 / 10 ^ 7 ∧
      |(CheckNormalQ sqrt q).z - p.z| ≤ 8 * e + 1 / 10 ^ 7 := by
  set dN := q.x * q.x + q.y * q.y + q.z * q.z with hdN
  have comp : ∀ a : ℚ, a * a ≤ 1 + 1 / 10 ^ 8 → |a| ≤ 1001 / 1000 := by
    intro a ha
    rw [abs_le]
    constructor <;> nlinarith
  rw [abs_le] at hp hx hy hz
  have px := comp p.x (by nlinarith [mul_self_nonneg p.y, mul_self_nonneg p.z])
  have py := comp p.y (by nlinarith [mul_self_nonneg p.x, mul_self_nonneg p.z])
  have pz := comp p.z (by nlinarith [mul_self_nonneg p.y, mul_self_nonneg p.x])
  rw [abs_le] at px py pz
  -- the squared length of `q`
  have sq : ∀ a b : ℚ, (-(1001 / 1000) ≤ a ∧ a ≤ 1001 / 1000) → (-e ≤ b - a ∧ b - a ≤ e) →
      -(202 / 100 * e) ≤ b * b - a * a ∧ b * b - a * a ≤ 202 / 100 * e := by
    rintro a b ⟨a1, a2⟩ ⟨b1, b2⟩
    have : b * b - a * a = (b - a) * (2 * a + (b - a)) := by ring
    rw [this, ← abs_le, abs_mul]
    have h1 : |b - a| ≤ e := abs_le.mpr ⟨b1, b2⟩
    have h2 : |2 * a + (b - a)| ≤ 202 / 100 := abs_le.mpr ⟨by linarith, by linarith⟩
    calc |b - a| * |2 * a + (b - a)| ≤ e * (202 / 100) := mul_le_mul h1 h2 (abs_nonneg _) he
      _ = 202 / 100 * e := by ring
  have sx := sq _ _ px hx
  have sy := sq _ _ py hy
  have sz := sq _ _ pz hz
  have hlo : 1 - (606 / 100 * e + 1 / 10 ^ 8) ≤ dN := by rw [hdN]; linarith
  have hhi : dN ≤ 1 + (606 / 100 * e + 1 / 10 ^ 8) := by rw [hdN]; linarith
  have hpos : 9 / 10 ≤ dN := by linarith
  obtain ⟨s0, s2⟩ := hs dN (by linarith)
  rw [abs_le] at s2
  have hd2 : dN / 10 ^ 15 ≤ 1 / 10 ^ 14 := by
    rw [div_le_div_iff₀ (by norm_num) (by norm_num)]; linarith
  obtain ⟨h9, s1⟩ := sqrt_bound s0 (by linarith [s2.1]) (by linarith [s2.2]) hlo hhi (by linarith)
  replace s1 : |sqrt dN - 1| ≤ 33 / 10 * e + 1 / 10 ^ 7 / 10 := s1.trans (by linarith)
  have fin : ∀ a b : ℚ, (-(1001 / 1000) ≤ a ∧ a ≤ 1001 / 1000) → (-e ≤ b - a ∧ b - a ≤ e) →
      |b / sqrt dN - a| ≤ 8 * e + 1 / 10 ^ 7 := by
    rintro a b ⟨a1, a2⟩ hb
    have e1 : b / sqrt dN - a = ((b - a) + a * (1 - sqrt dN)) / sqrt dN := by field_simp; ring
    rw [e1, abs_div, abs_of_pos s0, div_le_iff₀ s0]
    have h1 : |b - a| ≤ e := abs_le.mpr hb
    have h2 : |a| ≤ 1001 / 1000 := abs_le.mpr ⟨a1, a2⟩
    have h3 : |1 - sqrt dN| ≤ 33 / 10 * e + 1 / 10 ^ 7 / 10 := by rw [abs_sub_comm]; exact s1
    have h4 : |(b - a) + a * (1 - sqrt dN)| ≤ e + 1001 / 1000 * (33 / 10 * e + 1 / 10 ^ 7 / 10) := by
      refine (abs_add_le _ _).trans ?_
      rw [abs_mul]
      have := mul_le_mul h2 h3 (abs_nonneg _) (by norm_num)
      linarith
    have h5 : (8 * e + 1 / 10 ^ 7) * (9 / 10) ≤ (8 * e + 1 / 10 ^ 7) * sqrt dN :=
      mul_le_mul_of_nonneg_left h9 (by linarith)
    refine h4.trans (le_trans ?_ h5)
    linarith
  unfold CheckNormalQ
  rw [← hdN]
  simp only
  rw [if_neg (by norm_num; linarith)]
  split
  · exact ⟨fin _ _ px hx, fin _ _ py hy, fin _ _ pz hz⟩
  · refine ⟨abs_le.mpr ⟨?_, ?_⟩, abs_le.mpr ⟨?_, ?_⟩, abs_le.mpr ⟨?_, ?_⟩⟩ <;> linarith

end Iges
