import Verif.Lemmas.MergeParted
import Verif.Lemmas.TurnsMerge
/-
The region of an outline from which another one has been cut out, or to which it has been joined.
-/
namespace Iges.Turn
open Iges.Geo Spec Props Filter Topology

/-! ### Turning round -/

theorem fit_reverse {s : Seg} (h : Fit s) : Fit s.reverse ∧ s.reverse.start = s.stop ∧ s.reverse.stop = s.start := by
  obtain ⟨h1, h2, -⟩ := C61_reverse_ends s
  obtain ⟨e1, e2⟩ := h1 h.kind
  refine ⟨⟨by rw [h2]; exact h.kind, h.made.reverse, ?_⟩, e1, e2⟩
  intro k
  rw [h2] at k
  rw [e1, e2]
  have := h.sharp k
  unfold Seg.reverse
  rw [k]
  exact ⟨this.2, this.1⟩

theorem lineX_swap {p q : ℝ × ℝ} (h : p.2 ≠ q.2) (y : ℝ) : lineX p q y = lineX q p y := by
  have h1 : q.2 - p.2 ≠ 0 := sub_ne_zero.2 h.symm
  have h2 : p.2 - q.2 ≠ 0 := sub_ne_zero.2 h
  unfold lineX
  field_simp
  ring

theorem wind_reverse {s : Seg} (h : Fit s) (x : ℝ × ℝ) : (curve s.reverse).wind x = - (curve s).wind x := by
  have hk := (C61_reverse_ends s).2.1
  obtain ⟨-, e1, e2⟩ := fit_reverse h
  rcases h.kind with k | k
  · rw [curve_line k, curve_line (by rw [hk]; exact k), e1, e2]
    simp only [Curve.wind]
    by_cases hy : (plane s.start).2 = (plane s.stop).2
    · unfold step; rw [hy]; ring
    · rw [lineX_swap hy]; unfold step; ring
  · rw [curve_arc k, curve_arc (by rw [hk]; exact k)]
    unfold Seg.reverse
    rw [k]
    simp only [Curve.wind]
    ring

theorem joined_reverse {l : List Seg} (hf : ∀ s ∈ l, Fit s) {a b : Point ℝ} (h : Spec.Joined a l b) :
    Spec.Joined b (l.reverse.map Seg.reverse) a := by
  induction l generalizing a with
  | nil => exact (show a = b from h).symm
  | cons s l ih =>
    obtain ⟨e, h⟩ := h
    rw [List.reverse_cons, List.map_append]
    obtain ⟨-, e1, e2⟩ := fit_reverse (hf s (by simp))
    exact joined_append.2 ⟨s.stop, ih (fun t ht => hf t (by simp [ht])) h, e1, by rw [e2, e]; exact rfl⟩

theorem turns_reverse {l : List Seg} (hf : ∀ s ∈ l, Fit s) (x : ℝ × ℝ) :
    turns ((l.map Seg.reverse).map curve) x = - turns (l.map curve) x := by
  induction l with
  | nil => simp
  | cons s l ih =>
    simp only [List.map_cons, turns_cons]
    rw [ih (fun t ht => hf t (by simp [ht])), wind_reverse (hf s (by simp))]
    ring

theorem back_of {l : List Seg} (hf : ∀ s ∈ l, Fit s) {p q : Point ℝ} (h : Spec.Joined p l q) :
    Back (l.map curve) ((l.reverse.map Seg.reverse).map curve) (plane p) (plane q) := by
  have hf' : ∀ s ∈ l.reverse.map Seg.reverse, Fit s := by
    intro s hs
    obtain ⟨t, ht, rfl⟩ := List.mem_map.1 hs
    exact (fit_reverse (hf t (by simpa using ht))).1
  refine ⟨linked_of_joined hf' (joined_reverse hf h), ok_map hf', fun x => ?_, fun x => ?_⟩
  · rw [turns_reverse (fun s hs => hf s (by simpa using hs))]
    rw [turns_perm ((List.reverse_perm l).map curve)]
  · constructor
    · intro ho k hk
      obtain ⟨s, hs, rfl⟩ := List.mem_map.1 hk
      have := ho (curve s.reverse) (List.mem_map.2 ⟨s.reverse, List.mem_map.2 ⟨s, by simpa using hs, rfl⟩, rfl⟩)
      rwa [(fit_reverse (hf s hs)).1.trace, C61_reverse (hf s hs).made, ← (hf s hs).trace] at this
    · intro ho k hk
      obtain ⟨s', hs, rfl⟩ := List.mem_map.1 hk
      obtain ⟨s, hs', rfl⟩ := List.mem_map.1 hs
      clear hs
      have hs : s ∈ l := List.mem_reverse.1 hs'
      rw [(fit_reverse (hf s hs)).1.trace, C61_reverse (hf s hs).made, ← (hf s hs).trace]
      exact ho _ (List.mem_map_of_mem hs)

/-! ### Points off the border -/

/-- near every point there are points that are on none of the segments -/
theorem off_dense {l : List Seg} (hf : ∀ s ∈ l, Fit s) {x : ℝ × ℝ} {P : ℝ × ℝ → Prop} (h : ∀ᶠ y in 𝓝 x, P y) :
    ∃ y, P y ∧ Off (l.map curve) y := by
  obtain ⟨y, hy, hpl⟩ := plain_near l x (eventually_eventually_nhds.2 h)
  have hc : Continuous fun t : ℝ => (t, y.2) := by fun_prop
  have h1 : ∀ᶠ t in 𝓝 y.1, P (t, y.2) := hc.continuousAt.eventually hy
  have h2 : ∀ᶠ t in 𝓝[<] y.1, P (t, y.2) := h1.filter_mono nhdsWithin_le_nhds
  let bad : Set ℝ := {t | ∃ s ∈ l, Covers s (pt t y.2) ∧ t < y.1}
  have hb : bad.Finite := by
    have : bad ⊆ ⋃ s ∈ {s | s ∈ l}, Point.x '' leftOf (pt y.1 y.2) s := by
      rintro t ⟨s, hs, hcov, ht⟩
      simp only [Set.mem_iUnion]
      exact ⟨s, hs, pt t y.2, ⟨hcov, rfl, ht⟩, rfl⟩
    refine Set.Finite.subset (Set.Finite.biUnion (List.finite_toSet l) fun s hs => ?_) this
    exact (((hf s hs).count (hpl s hs)).1).image _
  have h3 : ∀ᶠ t in 𝓝[<] y.1, t ∉ bad := by
    have : ∀ᶠ t in 𝓝[<] y.1, t ∉ bad := by
      have hcl : IsClosed bad := hb.isClosed
      have hn : y.1 ∉ bad := fun ⟨s, _, _, hlt⟩ => lt_irrefl _ hlt
      have hev : ∀ᶠ t in 𝓝 y.1, t ∉ bad := hcl.isOpen_compl.mem_nhds hn
      exact hev.filter_mono nhdsWithin_le_nhds
    exact this
  obtain ⟨t, ht1, ht2, ht3⟩ := (h2.and (h3.and (eventually_mem_nhdsWithin (a := y.1) (s := Set.Iio y.1)))).exists
  refine ⟨(t, y.2), ht1, ?_⟩
  intro k hk hm
  obtain ⟨s, hs, rfl⟩ := List.mem_map.1 hk
  exact ht2 ⟨s, hs, ((hf s hs).trace _).1 hm, ht3⟩

/-! ### The two parts of each border -/

section
variable {l m A B C D : List Seg} {p q : Point ℝ}

theorem Halves.off (h : Halves l p q A B) (hf : ∀ s ∈ l, Fit s) (x : ℝ × ℝ) :
    Off ((A ++ B).map curve) x ↔ Off (l.map curve) x := by
  have h1 := off_map h.fit (p := pt x.1 x.2) rfl
  have h2 := off_map hf (p := pt x.1 x.2) rfl
  rw [show plane (pt x.1 x.2) = x from rfl] at h1 h2
  rw [h1, h2]
  unfold OffBorder
  have := h.covers (pt x.1 x.2)
  constructor
  · rintro ⟨hz, ho⟩
    refine ⟨hz, fun s hs hc => ?_⟩
    obtain ⟨t, ht, htc⟩ := this.2 ⟨s, hs, hc⟩
    exact ho t ht htc
  · rintro ⟨hz, ho⟩
    refine ⟨hz, fun s hs hc => ?_⟩
    obtain ⟨t, ht, htc⟩ := this.1 ⟨s, hs, hc⟩
    exact ho t ht htc

theorem Halves.level (h : Halves l p q A B) (hf : ∀ s ∈ l, Fit s) (n : ℤ) :
    level (A.map curve ++ B.map curve) n = level (l.map curve) n := by
  ext x
  unfold Turn.level
  rw [← List.map_append]
  show Off _ x ∧ _ ↔ Off _ x ∧ _
  rw [h.off hf, h.turns]

theorem one_level (hf : ∀ s ∈ l, Fit s) (hr : Round l) (hp : Proper l) (ho : OnePiece l) (n : ℤ) :
    IsPreconnected (level (l.map curve) n) := by
  have key : ∀ x : ℝ × ℝ, Off (l.map curve) x → (Inside l (pt x.1 x.2) ↔ turns (l.map curve) x = 1) := fun x hx =>
    inside_one hf hr hp ((off_map hf (p := pt x.1 x.2) rfl).1 hx)
  have one : ∀ x : ℝ × ℝ, Off (l.map curve) x → turns (l.map curve) x = 0 ∨ turns (l.map curve) x = 1 := fun x hx =>
    (proper_iff hf hr).1 hp (pt x.1 x.2) ((off_map hf (p := pt x.1 x.2) rfl).1 hx)
  by_cases h1 : n = 1
  · convert ho.1 using 1
    ext x
    show Off _ x ∧ _ ↔ OffBorder _ _ ∧ _
    rw [← off_map hf (p := pt x.1 x.2) rfl, show plane (pt x.1 x.2) = x from rfl]
    refine and_congr_right fun hx => ?_
    rw [key x hx, h1]
  by_cases h0 : n = 0
  · convert ho.2 using 1
    ext x
    show Off _ x ∧ _ ↔ OffBorder _ _ ∧ _
    rw [← off_map hf (p := pt x.1 x.2) rfl, show plane (pt x.1 x.2) = x from rfl]
    refine and_congr_right fun hx => ?_
    rw [key x hx, h0]
    rcases one x hx with e | e <;> rw [e] <;> simp
  · convert isPreconnected_empty using 1
    ext x
    simp only [Set.mem_empty_iff_false, iff_false]
    rintro ⟨hx, e⟩
    rcases one x hx with e' | e' <;> rw [e'] at e
    · exact h0 e.symm
    · exact h1 e.symm

/-- an inner point of a piece is not on the other border -/
theorem Halves.inner (h : Halves l p q A B) (hS : ∀ x, Shared l m x ↔ x = p ∨ x = q) {s : Seg} (hs : s ∈ A ++ B) {x : Point ℝ}
    (hx : Covers s x) (h1 : x ≠ s.start) (h2 : x ≠ s.stop) : OffBorder m x := by
  refine ⟨covers_flat hx, fun t ht hc => ?_⟩
  have hl := (h.covers x).1 ⟨s, hs, hx⟩
  rcases (hS x).1 ⟨hl, t, ht, hc⟩ with rfl | rfl
  · rcases (h.endP s hs hx).1 with e | e
    · exact h1 e
    · exact h2 e
  · rcases (h.endQ s hs hx).1 with e | e
    · exact h1 e
    · exact h2 e

theorem Halves.inner_at (h : Halves l p q A B) (hS : ∀ x, Shared l m x ↔ x = p ∨ x = q) (hfm : ∀ s ∈ m, Fit s) {s : Seg}
    (hs : s ∈ A ++ B) {t : ℝ} (ht : t ∈ Set.Ioo (0 : ℝ) 1) : Off (m.map curve) ((curve s).at t) := by
  have fs := h.fit s hs
  have hc := fs.at_covers ht
  have key : OffBorder m (pt ((curve s).at t).1 ((curve s).at t).2) := by
    refine ⟨rfl, fun u hu huc => ?_⟩
    have hl := (h.covers _).1 ⟨s, hs, hc⟩
    have no : ∀ x, (x = s.start ∨ x = s.stop) ∧ s.start ≠ s.stop → pt ((curve s).at t).1 ((curve s).at t).2 = x → False := by
      rintro x ⟨hx, hne⟩ e
      obtain ⟨n1, n2⟩ := fs.at_ne hne ht
      rcases hx with rfl | rfl
      · apply n1; rw [← e]; rfl
      · apply n2; rw [← e]; rfl
    rcases (hS _).1 ⟨hl, u, hu, huc⟩ with e | e
    · exact no _ (h.endP s hs (by rw [← e]; exact hc)) e
    · exact no _ (h.endQ s hs (by rw [← e]; exact hc)) e
  exact (off_map hfm (p := pt ((curve s).at t).1 ((curve s).at t).2) rfl).2 key

theorem Halves.side (h : Halves l p q A B) (h' : Halves m p q C D) (hS : ∀ x, Shared l m x ↔ x = p ∨ x = q)
    (hfm : ∀ s ∈ m, Fit s) {F : List Seg} (hF : F = A ∨ F = B) :
    ∃ v, Beside (F.map curve) (C.map curve ++ D.map curve) v := by
  have sub : ∀ s ∈ F, s ∈ A ++ B := by rcases hF with rfl | rfl <;> intro s hs <;> simp [hs]
  have tail : ∀ s ∈ F.tail, s.start ≠ p ∧ s.start ≠ q := by
    rcases hF with rfl | rfl
    · exact h.tailA
    · exact h.tailB
  have link : ∃ a b, Linked a (F.map curve) b := by
    rcases hF with rfl | rfl
    · exact ⟨_, _, linked_of_joined (fun s hs => h.fit s (sub s hs)) h.joinA⟩
    · exact ⟨_, _, linked_of_joined (fun s hs => h.fit s (sub s hs)) h.joinB⟩
  obtain ⟨a, b, hl⟩ := link
  have hm : Linked (plane p) (C.map curve ++ D.map curve) (plane p) := by
    rw [← List.map_append]
    exact linked_of_joined h'.fit (joined_append.2 ⟨_, h'.joinA, h'.joinB⟩)
  have off : ∀ x, Off (m.map curve) x → Off (C.map curve ++ D.map curve) x := by
    intro x hx
    rw [← List.map_append]
    exact (h'.off hfm x).2 hx
  refine side_all hm (by rw [← List.map_append]; exact ok_map h'.fit) hl ?_ ?_
  · intro k hk t ht
    obtain ⟨s, hs, rfl⟩ := List.mem_map.1 hk
    exact off _ (h.inner_at hS hfm (sub s hs) ht)
  · intro k hk
    rw [← List.map_tail] at hk
    obtain ⟨s, hs, rfl⟩ := List.mem_map.1 hk
    obtain ⟨n1, n2⟩ := tail s hs
    have fs := h.fit s (sub s (List.mem_of_mem_tail hs))
    rw [fs.first]
    refine off _ ((off_map hfm fs.zs.1).2 ⟨fs.zs.1, fun t ht hc => ?_⟩)
    rcases (hS _).1 ⟨(h.covers _).1 ⟨s, sub s (List.mem_of_mem_tail hs), fs.start_covered⟩, t, ht, hc⟩ with e | e
    · exact n1 e
    · exact n2 e

open Classical in
/-- two outlines that cross in two points -/
theorem crossing (hfl : ∀ s ∈ l, Fit s) (hfm : ∀ s ∈ m, Fit s) (rl : Round l) (rm : Round m) (pl : Proper l) (pm : Proper m)
    (ol : OnePiece l) (om : OnePiece m) (hov : Overlap l m) (hS : ∀ x, Shared l m x ↔ x = p ∨ x = q)
    (h : Halves l p q A B) (h' : Halves m p q C D) :
    Crossing (plane p) (plane q) (A.map curve) (B.map curve) (C.map curve) (D.map curve) := by
  have hS' : ∀ x, Shared m l x ↔ x = p ∨ x = q := fun x => by rw [← hS]; unfold Shared; tauto
  have fA : ∀ s ∈ A, Fit s := fun s hs => h.fit s (by simp [hs])
  have fB : ∀ s ∈ B, Fit s := fun s hs => h.fit s (by simp [hs])
  have fC : ∀ s ∈ C, Fit s := fun s hs => h'.fit s (by simp [hs])
  have fD : ∀ s ∈ D, Fit s := fun s hs => h'.fit s (by simp [hs])
  have lev : ∀ {l : List Seg} {x : Point ℝ}, (∀ s ∈ l, Fit s) → Round l → Proper l → OffBorder l x →
      plane x ∈ level (l.map curve) (if Inside l x then 1 else 0) := by
    intro l x hf hr hp hx
    refine ⟨(off_map hf hx.1).2 hx, ?_⟩
    have := inside_one hf hr hp hx
    rcases (proper_iff hf hr).1 hp x hx with e | e
    · rw [if_neg (by rw [this, e]; simp), e]
    · rw [if_pos (this.2 e), e]
  have one : ∀ {l A B : List Seg}, (∀ s ∈ l, Fit s) → Round l → Proper l → Halves l p q A B → ∀ x,
      Off (A.map curve ++ B.map curve) x → turns (A.map curve ++ B.map curve) x = 0 ∨ turns (A.map curve ++ B.map curve) x = 1 := by
    intro l A B hf hr hp h x hx
    rw [← List.map_append] at hx ⊢
    rw [h.turns]
    exact (proper_iff hf hr).1 hp (pt x.1 x.2) ((off_map hf (p := pt x.1 x.2) rfl).1 ((h.off hf x).1 hx))
  refine ⟨linked_of_joined fA h.joinA, linked_of_joined fB h.joinB, linked_of_joined fC h'.joinA, linked_of_joined fD h'.joinB,
    ok_map fA, ok_map fB, ok_map fC, ok_map fD, one hfl rl pl h, one hfm rm pm h',
    fun n => by rw [h.level hfl]; exact one_level hfl rl pl ol n, fun n => by rw [h'.level hfm]; exact one_level hfm rm pm om n,
    h.side h' hS hfm (Or.inl rfl), h.side h' hS hfm (Or.inr rfl), h'.side h hS' hfl (Or.inl rfl), h'.side h hS' hfl (Or.inr rfl),
    ?_, ?_, ?_⟩
  · obtain ⟨⟨x, x1, x2, x3, x4⟩, -, -⟩ := hov
    refine ⟨plane x, ?_, ?_⟩
    · rw [h.level hfl]; have := lev hfl rl pl x1; rwa [if_pos x3] at this
    · rw [h'.level hfm]; have := lev hfm rm pm x2; rwa [if_pos x4] at this
  · obtain ⟨-, ⟨x, x1, x2, x3, x4⟩, -⟩ := hov
    refine ⟨plane x, ?_, ?_⟩
    · rw [h.level hfl]; have := lev hfl rl pl x1; rwa [if_pos x3] at this
    · rw [h'.level hfm]; have := lev hfm rm pm x2; rwa [if_neg x4] at this
  · obtain ⟨-, -, x, x1, x2, x3, x4⟩ := hov
    refine ⟨plane x, ?_, ?_⟩
    · rw [h.level hfl]; have := lev hfl rl pl x1; rwa [if_neg x3] at this
    · rw [h'.level hfm]; have := lev hfm rm pm x2; rwa [if_pos x4] at this

/-- what `IsInside` finds out of the midpoint of a piece tells on which side the part is -/
theorem Halves.judged (h : Halves l p q A B) (h' : Halves m p q C D) (hS : ∀ x, Shared l m x ↔ x = p ∨ x = q)
    (hfm : ∀ s ∈ m, Fit s) (rm : Round m) (pm : Proper m) {s : Seg} (hs : s ∈ A) (hsp : s.start = p) {y : Point ℝ}
    (hy : s.midpoint = some y) {b : Bool} (hb : b = true ↔ Inside m y) :
    Beside (A.map curve) (C.map curve ++ D.map curve) (if b then 1 else 0) := by
  obtain ⟨v, hv⟩ := h.side h' hS hfm (Or.inl rfl)
  have fs := h.fit s (by simp [hs])
  have hne := (h.endP s (by simp [hs]) (by rw [← hsp]; exact fs.start_covered)).2
  obtain ⟨y', e, c1, c2, c3⟩ := fs.middle hne
  rw [hy] at e
  obtain rfl := Option.some.inj e
  have ho := h.inner hS (by simp [hs]) c1 c2 c3
  have e1 := hv (curve s) (List.mem_map_of_mem hs) (plane y) ((fs.trace' ho.1).2 c1) (by
    rw [← List.map_append, h'.off hfm]; exact (off_map hfm ho.1).2 ho)
  rw [← List.map_append, h'.turns] at e1
  have e2 := inside_one hfm rm pm ho
  rcases (proper_iff hfm rm).1 pm y ho with e | e
  · have : b = false := by
      cases b
      · rfl
      · rw [hb.1 rfl |> e2.1] at e; cases e
    rw [this]
    rw [e] at e1
    rw [← e1] at hv
    simpa using hv
  · have : b = true := hb.2 (e2.2 e)
    rw [this]
    rw [e] at e1
    rw [← e1] at hv
    simpa using hv


/-- a list that is a rotation of another one and begins with the one element of a kind that the other one begins with -/
theorem rotation_eq {α : Type} {P : α → Prop} {l X Y : List α} {n : ℕ} (hl : ∃ a t, l = a :: t ∧ ∀ b ∈ t, ¬ P b)
    (h : l.drop n ++ l.take n = X ++ Y) (hY : ∃ a t, Y = a :: t ∧ P a) : Y ++ X = l := by
  obtain ⟨a, t, rfl, ht⟩ := hl
  obtain ⟨b, u, rfl, hb⟩ := hY
  -- `b` is `a`, at its only place
  cases n with
  | zero =>
    simp only [List.drop_zero, List.take_zero, List.append_nil] at h
    cases X with
    | nil => simpa using h.symm
    | cons c X =>
      exfalso
      rw [List.cons_append, List.cons.injEq] at h
      exact ht b (by rw [h.2]; simp) hb
  | succ n =>
    rw [List.drop_succ_cons, List.take_succ_cons] at h
    have hd : ∀ c ∈ t.drop n, ¬ P c := fun c hc => ht c (List.mem_of_mem_drop hc)
    rcases List.append_eq_append_iff.1 h with ⟨as, h1, h2⟩ | ⟨bs, h1, h2⟩
    · -- `X` begins with what is dropped
      cases as with
      | nil =>
        simp only [List.append_nil, List.nil_append] at h1 h2
        rw [h1, ← h2, List.cons_append, List.take_append_drop]
      | cons c as =>
        exfalso
        rw [List.cons_append, List.cons.injEq] at h2
        exact ht b (List.mem_of_mem_take (i := n) (by rw [h2.2]; simp)) hb
    · cases bs with
      | nil =>
        simp only [List.append_nil, List.nil_append] at h1 h2
        rw [← h1, h2, List.cons_append, List.take_append_drop]
      | cons c bs =>
        exfalso
        rw [List.cons_append, List.cons.injEq] at h2
        obtain ⟨rfl, h2⟩ := h2
        exact hd b (by rw [h1]; simp) hb

theorem proper_perm {l m : List Seg} (h : l.Perm m) : Proper l → Proper m := by
  intro hp x hx hpl
  have e : rounds m x = rounds l x := (h.symm.map _).sum_eq
  rw [e]
  exact hp x ⟨hx.1, fun s hs => hx.2 s (h.mem_iff.1 hs)⟩ (fun s hs => hpl s (h.mem_iff.1 hs))

theorem inside_perm {l m : List Seg} (h : l.Perm m) (x : Point ℝ) : Inside l x ↔ Inside m x := by
  have e : ∀ q, EvenOdd l q ↔ EvenOdd m q := fun q => by unfold EvenOdd; rw [(h.map _).sum_eq]
  unfold Inside
  constructor
  · rintro ⟨δ, hδ, hh⟩
    exact ⟨δ, hδ, fun q h1 h2 h3 => (e q).1 (hh q h1 h2 fun s hs => h3 s (h.mem_iff.1 hs))⟩
  · rintro ⟨δ, hδ, hh⟩
    exact ⟨δ, hδ, fun q h1 h2 h3 => (e q).2 (hh q h1 h2 fun s hs => h3 s (h.mem_iff.2 hs))⟩

/-- what the new border `Z` goes round -/
theorem region_of {Z : List Seg} {opsub : Bool} (hfl : ∀ s ∈ l, Fit s) (hfm : ∀ s ∈ m, Fit s) (rl : Round l) (rm : Round m)
    (pl : Proper l) (pm : Proper m) (hfZ : ∀ s ∈ Z, Fit s) (rZ : Round Z)
    (hsub : ∀ x, (∃ s ∈ Z, Covers s x) → (∃ s ∈ l, Covers s x) ∨ ∃ s ∈ m, Covers s x)
    (ht : ∀ x, Off (l.map curve) x → Off (m.map curve) x → turns (Z.map curve) x =
      if opsub then turns (l.map curve) x - turns (l.map curve) x * turns (m.map curve) x
      else turns (l.map curve) x + turns (m.map curve) x - turns (l.map curve) x * turns (m.map curve) x) :
    Proper Z ∧ ∀ x, OffBorder l x → OffBorder m x →
      (Inside Z x ↔ if opsub then Inside l x ∧ ¬ Inside m x else Inside l x ∨ Inside m x) := by
  have val : ∀ x : ℝ × ℝ, Off (l.map curve) x → Off (m.map curve) x → turns (Z.map curve) x = 0 ∨ turns (Z.map curve) x = 1 := by
    intro x h1 h2
    rw [ht x h1 h2]
    have v1 := (proper_iff hfl rl).1 pl (pt x.1 x.2) ((off_map hfl (p := pt x.1 x.2) rfl).1 h1)
    have v2 := (proper_iff hfm rm).1 pm (pt x.1 x.2) ((off_map hfm (p := pt x.1 x.2) rfl).1 h2)
    rw [show plane (pt x.1 x.2) = x from rfl] at v1 v2
    rcases v1 with v1 | v1 <;> rcases v2 with v2 | v2 <;> rw [v1, v2] <;> cases opsub <;> simp
  have pZ : Proper Z := by
    rw [proper_iff hfZ rZ]
    intro x hx
    obtain ⟨y, ⟨h1, h2⟩, h3⟩ := off_dense (l := l ++ m) (by
      intro s hs
      rcases List.mem_append.1 hs with hs | hs
      · exact hfl s hs
      · exact hfm s hs) (round_local hfZ rZ hx)
    rw [List.map_append, off_append] at h3
    rw [← h2]
    exact val y h3.1 h3.2
  refine ⟨pZ, ?_⟩
  intro x h1 h2
  have hx : OffBorder Z x := by
    refine ⟨h1.1, fun s hs hc => ?_⟩
    rcases hsub x ⟨s, hs, hc⟩ with ⟨t, ht, htc⟩ | ⟨t, ht, htc⟩
    · exact h1.2 t ht htc
    · exact h2.2 t ht htc
  rw [inside_one hfZ rZ pZ hx, inside_one hfl rl pl h1, inside_one hfm rm pm h2,
    ht _ ((off_map hfl h1.1).2 h1) ((off_map hfm h2.1).2 h2)]
  rcases (proper_iff hfl rl).1 pl x h1 with v1 | v1 <;> rcases (proper_iff hfm rm).1 pm x h2 with v2 | v2 <;> rw [v1, v2] <;>
    cases opsub <;> simp

end
end Iges.Turn
