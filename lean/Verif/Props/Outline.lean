import Verif.Lemmas.Outline
/-
C67: drawing an outline segment by segment.
-/
namespace Iges.Props.Outlines
open Iges.Geo Iges.Spec Real

/-- C67. `AddSegment` takes a segment exactly when the outline is not closed yet and the segment is a circle and the first
one, or is a line or an arc that starts where the last one ends. -/
theorem C67_accepts (o : Outline) (a : Option Seg) :
    (addSegment o a).2 = true ↔ ∃ s, a = some s ∧ o.closed = false ∧
      ((s.kind = .circle ∧ o.segs = []) ∨
       ((s.kind = .line ∨ s.kind = .arc) ∧ ∀ e, o.segs.getLast? = some e → PointMatches e.stop s.start 1e-8 = true)) := by
  cases a with
  | none => simp [addSegment]
  | some s =>
    unfold addSegment
    simp only [Option.some.injEq, exists_eq_left']
    cases hk : s.kind
    · simp
    all_goals
      simp only [reduceCtorEq, if_false, if_true, false_and, true_and, or_false, false_or, or_self, or_true]
      cases hc : o.closed
      · simp only [Bool.false_eq_true, if_false, true_and]
        first
          | (by_cases he : o.segs = [] <;> simp [he])
          | (cases hl : o.segs.getLast? with
             | none => simp
             | some e => by_cases hm : PointMatches e.stop s.start 1e-8 = true <;> simp [hm])
      · simp

/-- C67. A segment that is refused leaves the outline as it was. -/
theorem C67_refused (o : Outline) (a : Option Seg) (h : (addSegment o a).2 = false) : (addSegment o a).1 = o :=
  addSegment_refused (o' := (addSegment o a).1) (by rw [← h])

/-- C67. Whatever calls of `AddSegment` were made, the outline has no gaps: it is empty, or a single circle, or a sequence
of lines and arcs each of which ends where the next one starts.  It is closed exactly when it is a circle or has at least
two segments and the last one ends where the first one starts. -/
theorem C67_chain {l : List Seg} {o : Outline} (h : Drawn l o) :
    (o.segs = [] ∧ o.closed = false) ∨
    (∃ c, o.segs = [c] ∧ c.kind = .circle ∧ o.closed = true) ∨
    (o.segs ≠ [] ∧ (∀ s ∈ o.segs, s.kind = .line ∨ s.kind = .arc) ∧ Chained o.segs ∧
      (o.closed = true ↔ 2 ≤ o.segs.length ∧ EndsMeet o.segs)) := by
  cases drawn_state h with
  | empty _ h1 h2 => exact Or.inl ⟨h1, h2⟩
  | circle s b _ h1 h2 h3 => exact Or.inr (Or.inl ⟨s, h2, h1, h3⟩)
  | drawing h1 h2 h3 h4 h5 _ _ h6 =>
    refine Or.inr (Or.inr ?_)
    rw [h4, h5]
    exact ⟨h1, h2, h3, by simp; exact h6⟩
  | done lo hi h1 h2 h3 h4 h5 h6 =>
    obtain ⟨k1, k2, k3, k4⟩ := orient_ok h1 h2 h4 h3 (l.map windingOf).sum
    refine Or.inr (Or.inr ?_)
    rw [h5, h6]
    refine ⟨?_, k1, k2, by simp [k3, k4, h3]⟩
    intro e
    rw [e] at k4
    simp at k4
    omega

/-- C67. Lines and arcs each of which starts where the one before it ends are all accepted, as long as none of them but
the last one comes back to the start; the outline is closed afterwards exactly when the last one does. -/
theorem C67_drawable {l : List Seg} (hp : ∀ s ∈ l, s.kind = .line ∨ s.kind = .arc) (hc : Chained l)
    (hn : ∀ k, 2 ≤ k → k < l.length → ¬ EndsMeet (l.take k)) :
    ∃ o, Drawn l o ∧ (o.closed = true ↔ 2 ≤ l.length ∧ EndsMeet l) := by
  induction l using List.reverseRecOn with
  | nil => exact ⟨_, .new, by simp [Outline.new]⟩
  | append_singleton l s ih =>
    obtain ⟨hcl, hj⟩ := (chained_snoc l s).1 hc
    obtain ⟨o, hd, hcd⟩ := ih (fun t ht => hp t (by simp [ht])) hcl (by
      intro k hk hlt he
      refine hn k hk (by simp; omega) ?_
      rwa [List.take_append_of_le_length hlt.le])
    have hopen : o.closed = false := by
      by_contra hne
      obtain ⟨h2, he⟩ := hcd.1 (by simpa using hne)
      exact hn l.length h2 (by simp) (by simpa using he)
    have hseg : o.segs = l := by
      cases drawn_state hd with
      | empty e1 e2 => rw [e1, e2]
      | circle _ _ _ _ _ e => rw [e] at hopen; cases hopen
      | drawing _ _ _ e => exact e
      | done _ _ _ _ _ _ _ e => rw [e] at hopen; cases hopen
    have hacc := (C67_accepts o (some s)).2 ⟨s, rfl, hopen, Or.inr ⟨hp s (by simp), by rw [hseg]; exact hj⟩⟩
    have hd' : Drawn (l ++ [s]) (addSegment o (some s)).1 := .took hd (by rw [← hacc])
    refine ⟨_, hd', ?_⟩
    cases drawn_state hd' with
    | empty e => simp at e
    | circle c _ e k =>
      have : c ∈ l ++ [s] := by rw [e]; simp
      rcases hp c this with k' | k' <;> rw [k] at k' <;> cases k'
    | drawing _ _ _ _ e _ _ hne => rw [e]; simp only [Bool.false_eq_true, false_iff]; exact fun ⟨a, b⟩ => hne a b
    | done _ _ _ _ e1 e2 _ e => rw [e]; simp only [true_iff]; exact ⟨e1, e2⟩

theorem contiguousFrom_iff (prev : Seg) (l : List Seg) :
    contiguousFrom prev l = true ↔ (∀ f, l.head? = some f → PointMatches prev.stop f.start 1e-8 = true) ∧ Chained l := by
  induction l generalizing prev with
  | nil => simp [contiguousFrom, Chained]
  | cons s l ih =>
    unfold contiguousFrom
    rw [Bool.and_eq_true, ih, C51_symmetric]
    cases l with
    | nil => simp [Chained]
    | cons t l => simp [Chained]

/-- C67. `IsContiguous` is true of every closed outline drawn with `AddSegment`, and false of every other one. -/
theorem C67_contiguous {l : List Seg} {o : Outline} (h : Drawn l o) : isContiguous o = o.closed := by
  rcases C67_chain h with ⟨h1, h2⟩ | ⟨c, h1, h2, h3⟩ | ⟨h1, h2, h3, h4⟩
  · simp [isContiguous, h1, h2]
  · simp [isContiguous, h1, h2, h3]
  · obtain ⟨f, r, e⟩ := List.exists_cons_of_ne_nil h1
    unfold isContiguous
    rw [e] at h2 h3 h4 ⊢
    cases hl : (f :: r).getLast? with
    | none => simp at hl
    | some z =>
      simp only
      cases hc : o.closed
      · rfl
      · have hk : f.kind ≠ .circle := by rcases h2 f (by simp) with k | k <;> simp [k]
        simp only [Bool.not_true, Bool.false_eq_true, if_false, hk]
        rw [contiguousFrom_iff]
        refine ⟨?_, h3⟩
        intro g hg
        simp at hg
        subst hg
        obtain ⟨-, f', z', hf, hz, hm⟩ := h4.1 hc
        simp at hf
        subst hf
        rw [hl] at hz
        injection hz with hz
        rw [hz]; exact hm

/-- C67. The outline has exactly the segments that were accepted: while it is open, in the order in which they came; once
it is closed, either that, or each of them turned round — so the points are the same. -/
theorem C67_contents {l : List Seg} {o : Outline} (h : Drawn l o) :
    (o.closed = false → o.segs = l) ∧
    (o.closed = true → o.segs = l ∨ o.segs.Perm (l.map Seg.reverse)) ∧
    ((∀ s ∈ l, Made s) → ∀ p, (∃ s ∈ o.segs, Covers s p) ↔ ∃ s ∈ l, Covers s p) := by
  have key : (o.segs = l ∨ (o.closed = true ∧ o.segs.Perm (l.map Seg.reverse))) := by
    cases drawn_state h with
    | empty h0 h1 h2 => left; rw [h0, h1]
    | circle s b h0 h1 h2 h3 => left; rw [h0, h2]
    | drawing h1 h2 h3 h4 h5 _ _ h6 => left; exact h4
    | done lo hi h1 h2 h3 h4 h5 h6 =>
      rw [h5, h6]
      unfold orient
      split
      · right
        refine ⟨rfl, ?_⟩
        split
        · rfl
        · exact List.reverse_perm _
      · exact Or.inl rfl
  refine ⟨fun hc => ?_, fun hc => ?_, fun hm p => ?_⟩
  · rcases key with k | ⟨k, -⟩
    · exact k
    · rw [hc] at k; cases k
  · rcases key with k | ⟨-, k⟩
    · exact Or.inl k
    · exact Or.inr k
  · rcases key with k | ⟨-, k⟩
    · rw [k]
    · constructor
      · rintro ⟨s, hs, hp⟩
        obtain ⟨t, ht, rfl⟩ := List.mem_map.1 (k.mem_iff.1 hs)
        exact ⟨t, ht, (C61_reverse (hm t ht) p).1 hp⟩
      · rintro ⟨s, hs, hp⟩
        exact ⟨s.reverse, k.mem_iff.2 (List.mem_map.2 ⟨s, hs, rfl⟩), (C61_reverse (hm s hs) p).2 hp⟩

/-- `adjustBoundingBox`: a square with integral corners and even sides around the old box, and not much larger -/
theorem adjustBox_spec (lo hi : Point ℝ) (hx : ⌊lo.x⌋ ≤ ⌈hi.x⌉) :
    ∃ m n k : ℤ, 0 ≤ k ∧ (adjustBox lo hi).1.x = m ∧ (adjustBox lo hi).1.y = n ∧
      (adjustBox lo hi).2.x = m + 2 * k ∧ (adjustBox lo hi).2.y = n + 2 * k ∧
      m ≤ lo.x ∧ n ≤ lo.y ∧ hi.x ≤ m + 2 * k ∧ hi.y ≤ n + 2 * k ∧
      lo.x < m + 1 ∧ lo.y < n + 1 ∧ (m + 2 * k < hi.x + 2 ∨ n + 2 * k < hi.y + 2) := by
  unfold adjustBox
  set dx := ⌈hi.x⌉ - ⌊lo.x⌋ with hdx
  set dy := ⌈hi.y⌉ - ⌊lo.y⌋ with hdy
  set ex := if dx % 2 ≠ 0 then dx + 1 else dx with hex
  set ey := if dy % 2 ≠ 0 then dy + 1 else dy with hey
  have e1 : dx ≤ ex ∧ ex ≤ dx + 1 ∧ ex % 2 = 0 := by rw [hex]; split <;> omega
  have e2 : dy ≤ ey ∧ ey ≤ dy + 1 ∧ ey % 2 = 0 := by rw [hey]; split <;> omega
  obtain ⟨k, hk⟩ : ∃ k, max ex ey = 2 * k := by
    rcases max_choice ex ey with e | e <;> rw [e]
    · exact ⟨ex / 2, by omega⟩
    · exact ⟨ey / 2, by omega⟩
  have hkx : dx ≤ 2 * k := by rw [← hk]; exact e1.1.trans (le_max_left _ _)
  have hky : dy ≤ 2 * k := by rw [← hk]; exact e2.1.trans (le_max_right _ _)
  have hk2 : 2 * k ≤ dx + 1 ∨ 2 * k ≤ dy + 1 := by
    rw [← hk]
    rcases max_choice ex ey with e | e <;> rw [e]
    · exact Or.inl e1.2.1
    · exact Or.inr e2.2.1
  have c1 := Int.le_ceil hi.x
  have c2 := Int.le_ceil hi.y
  have c3 := Int.ceil_lt_add_one hi.x
  have c4 := Int.ceil_lt_add_one hi.y
  have f1 := Int.floor_le lo.x
  have f2 := Int.floor_le lo.y
  have f3 := Int.lt_floor_add_one lo.x
  have f4 := Int.lt_floor_add_one lo.y
  refine ⟨⌊lo.x⌋, ⌊lo.y⌋, k, by omega, rfl, rfl, ?_, ?_, f1, f2, ?_, ?_, f3, f4, ?_⟩
  · simp only; rw [hk]; push_cast; ring
  · simp only; rw [hk]; push_cast; ring
  · have : ((⌈hi.x⌉ : ℤ) : ℝ) ≤ ((⌊lo.x⌋ + 2 * k : ℤ) : ℝ) := by exact_mod_cast (by omega)
    push_cast at this; linarith
  · have : ((⌈hi.y⌉ : ℤ) : ℝ) ≤ ((⌊lo.y⌋ + 2 * k : ℤ) : ℝ) := by exact_mod_cast (by omega)
    push_cast at this; linarith
  · rcases hk2 with h | h
    · left
      have : ((⌊lo.x⌋ + 2 * k : ℤ) : ℝ) ≤ ((⌈hi.x⌉ + 1 : ℤ) : ℝ) := by exact_mod_cast (by omega)
      push_cast at this; linarith
    · right
      have : ((⌊lo.y⌋ + 2 * k : ℤ) : ℝ) ≤ ((⌈hi.y⌉ + 1 : ℤ) : ℝ) := by exact_mod_cast (by omega)
      push_cast at this; linarith

theorem grow_sorted (ms : List (Point ℝ)) (b : Point ℝ × Point ℝ) (h : b.1.x ≤ b.2.x) :
    (ms.foldl grow b).1.x ≤ (ms.foldl grow b).2.x := by
  induction ms generalizing b with
  | nil => exact h
  | cons m ms ih =>
    apply ih
    unfold grow
    simp only
    split <;> split <;> linarith

/-- the corners of the box of a segment are in order up to 1e-8 -/
theorem box_sorted {s : Seg} {b : Point ℝ × Point ℝ} (h : s.box = some b) (hr : s.kind = .circle → 0 ≤ s.radius) :
    b.1.x < b.2.x + 1 := by
  unfold Seg.box at h
  split at h
  · cases h
  · split at h
    · rename_i hd
      rw [abs_lt] at hd
      norm_num at hd
      split at h <;> cases h <;> linarith [hd.1, hd.2]
    · cases h
      unfold endBox
      simp only
      split <;> linarith
  · rename_i hk
    cases h
    have := hr hk
    simp only
    linarith
  · cases h
    have : (endBox s.start s.stop).1.x ≤ (endBox s.start s.stop).2.x := by
      unfold endBox
      simp only
      split <;> linarith
    linarith [grow_sorted s.extrema _ this]

theorem floor_le_ceil {a b : ℝ} (h : a < b + 1) : ⌊a⌋ ≤ ⌈b⌉ := by
  have h1 := Int.floor_le a
  have h2 := Int.le_ceil b
  have : (⌊a⌋ : ℝ) < ((⌈b⌉ + 1 : ℤ) : ℝ) := by push_cast; linarith
  have : ⌊a⌋ < ⌈b⌉ + 1 := by exact_mod_cast this
  omega

/-- C67. The bounding box of a closed outline has corners with integral coordinates and is a square whose side is an even
number; every point of every segment lies in it, within the tolerance of the box of that segment; its left and its
bottom side are less than 1 away from a point of the outline, and its right or its top side less than 2. -/
theorem C67_box {l : List Seg} {o : Outline} (h : Drawn l o) (hm : ∀ s ∈ l, Made s) (hc : o.closed = true) :
    (∃ m n k : ℤ, o.lo.x = m ∧ o.lo.y = n ∧ o.hi.x = m + 2 * k ∧ o.hi.y = n + 2 * k) ∧
    (∀ s ∈ l, ∀ p, Covers s p → InBox (boxTol s) (o.lo, o.hi) p) ∧
    (∃ s ∈ l, ∃ p, Covers s p ∧ p.x < o.lo.x + 1 + boxTol s) ∧
    (∃ s ∈ l, ∃ p, Covers s p ∧ p.y < o.lo.y + 1 + boxTol s) ∧
    ((∃ s ∈ l, ∃ p, Covers s p ∧ o.hi.x - 2 - boxTol s < p.x) ∨ ∃ s ∈ l, ∃ p, Covers s p ∧ o.hi.y - 2 - boxTol s < p.y) := by
  obtain ⟨lo, hi, hh, he, hk⟩ : ∃ lo hi, HullOf l lo hi ∧ (o.lo, o.hi) = adjustBox lo hi ∧ ∀ s ∈ l, s.kind ≠ .none := by
    cases drawn_state h with
    | empty _ _ h2 => rw [hc] at h2; cases h2
    | circle s b h0 h1 h2 h3 h4 h5 =>
      refine ⟨b.1, b.2, by rw [h0]; exact HullOf.one h4, h5, ?_⟩
      rw [h0]; intro t ht; simp at ht; rw [ht, h1]; simp
    | drawing h1 h2 h3 h4 h5 => rw [hc] at h5; cases h5
    | done lo hi h1 h2 h3 h4 h5 h6 h7 h8 =>
      refine ⟨lo, hi, h7, h8, ?_⟩
      intro t ht; rcases h1 t ht with e | e <;> simp [e]
  have hx : lo.x < hi.x + 1 := by
    obtain ⟨s, hs, b, hb, e⟩ := hh.left
    have := box_sorted hb (fun hk => ((made_ok (hm s hs)).circle hk).1.le)
    have := (hh.inside s hs b hb).2.2.1
    linarith
  obtain ⟨m, n, k, -, e1, e2, e3, e4, i1, i2, i3, i4, t1, t2, t3⟩ := adjustBox_spec lo hi (floor_le_ceil hx)
  rw [← he] at e1 e2 e3 e4
  simp only at e1 e2 e3 e4
  refine ⟨⟨m, n, k, e1, e2, e3, e4⟩, ?_, ?_, ?_, ?_⟩
  · intro s hs p hp
    obtain ⟨b, hb, hin, -⟩ := C61_box (hm s hs) (hk s hs)
    obtain ⟨j1, j2, j3, j4⟩ := hh.inside s hs b hb
    obtain ⟨a1, a2, a3, a4⟩ := hin p hp
    unfold InBox
    simp only [e1, e2, e3, e4]
    exact ⟨by linarith, by linarith, by linarith, by linarith⟩
  · obtain ⟨s, hs, b, hb, e⟩ := hh.left
    obtain ⟨b', hb', -, ⟨p, hp, ht⟩, -⟩ := C61_box (hm s hs) (hk s hs)
    rw [hb] at hb'; injection hb' with hb'; subst hb'
    rw [abs_le] at ht
    exact ⟨s, hs, p, hp, by linarith [ht.2]⟩
  · obtain ⟨s, hs, b, hb, e⟩ := hh.bottom
    obtain ⟨b', hb', -, -, -, ⟨p, hp, ht⟩, -⟩ := C61_box (hm s hs) (hk s hs)
    rw [hb] at hb'; injection hb' with hb'; subst hb'
    rw [abs_le] at ht
    exact ⟨s, hs, p, hp, by linarith [ht.2]⟩
  · rcases t3 with t3 | t3
    · left
      obtain ⟨s, hs, b, hb, e⟩ := hh.right
      obtain ⟨b', hb', -, -, ⟨p, hp, ht⟩, -⟩ := C61_box (hm s hs) (hk s hs)
      rw [hb] at hb'; injection hb' with hb'; subst hb'
      rw [abs_le] at ht
      exact ⟨s, hs, p, hp, by linarith [ht.1]⟩
    · right
      obtain ⟨s, hs, b, hb, e⟩ := hh.top
      obtain ⟨b', hb', -, -, -, -, ⟨p, hp, ht⟩⟩ := C61_box (hm s hs) (hk s hs)
      rw [hb] at hb'; injection hb' with hb'; subst hb'
      rw [abs_le] at ht
      exact ⟨s, hs, p, hp, by linarith [ht.1]⟩

theorem segArea_reverse (s : Seg) (h : s.kind = .line ∨ s.kind = .arc) : segArea s.reverse = - segArea s := by
  rcases h with h | h
  · unfold segArea
    rw [(C61_reverse_ends s).2.1, h]
    simp only [Seg.reverse, h]
    unfold lineArea
    ring
  · unfold segArea
    rw [(C61_reverse_ends s).2.1, h]
    simp only [Seg.reverse, h]
    unfold arcArea
    rw [intervalIntegral.integral_symm]
    ring

theorem area_map_reverse {l : List Seg} (hp : Pieces l) : area (l.map Seg.reverse) = - area l := by
  induction l with
  | nil => simp [area]
  | cons s l ih =>
    have := ih (fun t ht => hp t (by simp [ht]))
    unfold area at this ⊢
    simp only [List.map_cons, List.sum_cons]
    rw [this, segArea_reverse s (hp s (by simp))]
    ring

theorem area_orient {l : List Seg} (hp : Pieces l) (w : ℝ) : area (orient l w) = if w > 0 then - area l else area l := by
  unfold orient
  split
  · rw [← area_map_reverse hp]
    split
    · rfl
    · unfold area
      exact ((List.reverse_perm (l.map Seg.reverse)).map segArea).sum_eq
  · rfl

theorem winding_area {l : List Seg} (hp : Pieces l) {a b : Point ℝ} (hj : Joined a l b) :
    (l.map windingOf).sum = -2 * polygonArea l + (b.x * b.y - a.x * a.y) := by
  induction l generalizing a with
  | nil =>
    have e : a = b := hj
    subst e
    simp [polygonArea]
  | cons s l ih =>
    obtain ⟨e, hj⟩ := hj
    have := ih (fun t ht => hp t (by simp [ht])) hj
    unfold polygonArea at this ⊢
    simp only [List.map_cons, List.sum_cons]
    rw [this, ← e]
    rcases hp s (by simp) with hk | hk
    · unfold windingOf chordArea lineArea
      simp only [hk]
      ring
    · obtain ⟨m, hm⟩ : ∃ m, s.midpoint = some m := by unfold Seg.midpoint; rw [hk]; exact ⟨_, rfl⟩
      unfold windingOf chordArea lineArea
      simp only [hk, hm, Option.getD_some]
      ring

/-- C67 (orientation, partial: with arcs the outline is turned by the polygon over the ends and midpoints, whose sense can
differ from that of the outline, see `C67_orientation_wrong`).  A closed outline of lines and arcs without any gap runs
counterclockwise and its area has not changed, provided that the polygon over the ends and midpoints runs clockwise
exactly when the outline as drawn does. -/
theorem C67_orientation_partial {l : List Seg} {o : Outline} (h : Drawn l o) (hc : o.closed = true) (hr : Round l)
    (hs : polygonArea l < 0 ↔ area l < 0) : area o.segs = |area l| := by
  cases drawn_state h with
  | empty _ _ h2 => rw [hc] at h2; cases h2
  | circle s b h0 h1 h2 h3 h4 h5 =>
    rw [h2, h0]
    unfold area segArea
    simp only [List.map_cons, h1, List.map_nil, List.sum_cons, List.sum_nil, add_zero]
    rw [abs_of_nonneg (by positivity)]
  | drawing h1 h2 h3 h4 h5 => rw [hc] at h5; cases h5
  | done lo hi h1 h2 h3 h4 h5 h6 h7 h8 =>
    obtain ⟨a, ha⟩ := hr
    rw [h5, area_orient h1, winding_area h1 ha]
    by_cases hp : polygonArea l < 0
    · rw [if_pos (by linarith), abs_of_neg (hs.1 hp)]
    · rw [if_neg (by linarith), abs_of_nonneg (not_lt.1 (fun e => hp (hs.2 e)))]

/-- C67. A closed outline of straight lines without any gap runs counterclockwise, whichever way it was drawn, and its
area has not changed. -/
theorem C67_orientation_lines {l : List Seg} {o : Outline} (h : Drawn l o) (hc : o.closed = true) (hr : Round l)
    (hl : ∀ s ∈ l, s.kind = .line) : area o.segs = |area l| := by
  apply C67_orientation_partial h hc hr
  have : polygonArea l = area l := by
    unfold polygonArea area
    congr 1
    apply List.map_congr_left
    intro s hs
    unfold chordArea segArea
    rw [hl s hs]
  rw [this]

end Iges.Props.Outlines
