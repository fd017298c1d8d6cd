import Mathlib.Tactic.IntervalCases
import Verif.Lemmas.IdfLoop
/-
C71: loops put together from loose segments (`GetOutline`).
-/
namespace Iges.Props.IdfLoop
open Iges.Idf Iges.Idf.Spec
open scoped List

/-- **C71_loop** (what `GetOutline` returns): for every list the outcome is one of two.

Either a loop is returned.  It consists of segments of the list, each perhaps walked from the other end, and every other
segment is still in the list: nothing is lost and nothing is duplicated.  At most one straight line has been added, at the
end of the loop, to close it, and only when no remaining segment begins or ends where the chain stopped.  Every segment
begins where the one before it ends and the loop is closed, to within a micrometre, or it is a single circle.

Or the outline is empty.  Then exactly one segment is gone: a straight line at whose end no other segment was found. -/
theorem C71_loop (lines : List Seg) (o : Loop) (rest : List Seg) (h : getOutline lines = some (o, rest)) :
    (∃ used kept closing first last, lines ~ used ++ rest ∧ List.Forall₂ SameSeg used kept ∧ o.segs = kept ++ closing ∧
      o.segs.head? = some first ∧ o.segs.getLast? = some last ∧ Chain o.segs ∧
      ((o.segs = [first] ∧ first.isCircle = true) ∨
        ((∀ s ∈ o.segs, s.isCircle = false) ∧ Close last.stop first.start)) ∧
      (closing = [] ∨ ∃ b, kept.getLast? = some b ∧ closing = [lineSeg b.stop first.start] ∧
        ∀ s ∈ rest, s.isCircle = false → ¬ Close s.start b.stop ∧ ¬ Close s.stop b.stop)) ∨
    (o.segs = [] ∧ ∃ s, lines ~ s :: rest ∧ s.isCircle = false ∧ |s.angle| ≤ 0.01 ∧
      ∀ t ∈ rest, t.isCircle = false → ¬ Close t.start s.stop ∧ ¬ Close t.stop s.stop) := by
  unfold getOutline at h
  cases hl : leftmost lines with
  | none => rw [hl] at h; cases h
  | some w =>
    obtain ⟨pre, s, post⟩ := w
    rw [hl] at h
    simp only at h
    obtain ⟨e, -, -⟩ := leftmost_some hl
    have hp : lines ~ s :: (pre ++ post) := by rw [e]; exact List.perm_middle
    by_cases hc : s.isCircle = true
    · rw [if_pos hc] at h
      obtain ⟨rfl, rfl⟩ := Prod.mk.inj (Option.some.inj h)
      left
      exact ⟨[s], [s], [], s, s, hp, List.Forall₂.cons (Or.inl rfl) List.Forall₂.nil, rfl, rfl, rfl, trivial,
        Or.inl ⟨rfl, hc⟩, Or.inl rfl⟩
    · rw [if_neg hc] at h
      have hc : s.isCircle = false := by simpa using hc
      have hr := Option.some.inj h
      have e1 : o = (assemble (Loop.empty.push s).1 (pre ++ post)).1 := by rw [hr]
      have e2 : rest = (assemble (Loop.empty.push s).1 (pre ++ post)).2 := by rw [hr]
      have es : (Loop.empty.push s).1.segs = [s] := rfl
      rcases assemble_spec _ (pre ++ post) rfl _ s s (good_single hc) with
        ⟨used, kept, closing, last, h1, h2, h3, h4, h5, h6⟩ | ⟨h1, h2, -, h4, h5, h6⟩
      · left
        rw [← e1, es] at h3
        rw [← e1] at h4
        rw [← e2] at h1 h6
        refine ⟨s :: used, s :: kept, closing, s, last, ?_, List.Forall₂.cons (Or.inl rfl) h2, h3, h4.head, h4.last, h4.chain,
          Or.inr ⟨h4.plain, h5⟩, ?_⟩
        · exact hp.trans (List.Perm.cons s h1)
        · rcases h6 with h6 | ⟨b, b1, b2, b3⟩
          · exact Or.inl h6
          · exact Or.inr ⟨b, by rw [es] at b1; exact b1, b2, b3⟩
      · right
        rw [← e1] at h1
        rw [← e2] at h2
        refine ⟨by rw [h1]; rfl, s, by rw [h2]; exact hp, hc, ?_, by rw [h2]; exact h6⟩
        unfold minAng at h4 h5
        exact abs_le.2 ⟨by norm_num at h4 ⊢; linarith, by norm_num at h5 ⊢; linarith⟩

/-- **C71_undefined**: the behaviour is undefined exactly for an empty list. -/
theorem C71_undefined (lines : List Seg) : getOutline lines = none ↔ lines = [] := by
  unfold getOutline
  rw [← leftmost_none]
  constructor
  · intro h
    cases hl : leftmost lines with
    | none => rfl
    | some w => rw [hl] at h; obtain ⟨pre, s, post⟩ := w; simp only at h; split at h <;> cases h
  · intro h; rw [h]

/-- **C71_progress**: every call takes something out of the list, so calling `GetOutline` while the list is not empty comes
to an end. -/
theorem C71_progress (lines : List Seg) (o : Loop) (rest : List Seg) (h : getOutline lines = some (o, rest)) :
    rest.length < lines.length := by
  rcases C71_loop lines o rest h with ⟨used, kept, closing, first, last, h1, h2, h3, h4, -, -, -, h8⟩ | ⟨-, s, h1, -⟩
  · have hl := h1.length_eq
    rw [List.length_append] at hl
    have : used ≠ [] := by
      rintro rfl
      cases h2
      rcases h8 with rfl | ⟨b, hb, -⟩
      · rw [h3] at h4; simp at h4
      · simp at hb
    have := List.length_pos_iff.2 this
    omega
  · have := h1.length_eq; simp at this; omega

/-- **C71_leftmost**: the loop starts with a segment of the list that has the smallest `GetMinX`. -/
theorem C71_leftmost (lines : List Seg) (o : Loop) (rest : List Seg) (h : getOutline lines = some (o, rest)) (s : Seg)
    (hs : o.segs.head? = some s) : s ∈ lines ∧ ∀ t ∈ lines, s.minX ≤ t.minX := by
  unfold getOutline at h
  cases hl : leftmost lines with
  | none => rw [hl] at h; cases h
  | some w =>
    obtain ⟨pre, u, post⟩ := w
    rw [hl] at h
    simp only at h
    obtain ⟨e, l1, l2⟩ := leftmost_some hl
    have key : u = s → s ∈ lines ∧ ∀ t ∈ lines, s.minX ≤ t.minX := by
      rintro rfl
      refine ⟨by rw [e]; simp, fun t ht => ?_⟩
      rw [e] at ht
      rcases List.mem_append.1 ht with ht | ht
      · exact le_of_lt (l1 t ht)
      · rcases List.mem_cons.1 ht with rfl | ht
        · exact le_rfl
        · exact l2 t ht
    apply key
    by_cases hc : u.isCircle = true
    · rw [if_pos hc] at h
      obtain ⟨rfl, rfl⟩ := Prod.mk.inj (Option.some.inj h)
      exact Option.some.inj hs
    · rw [if_neg hc] at h
      have hc : u.isCircle = false := by simpa using hc
      have e1 : o = (assemble (Loop.empty.push u).1 (pre ++ post)).1 := by rw [Option.some.inj h]
      rcases assemble_spec _ (pre ++ post) rfl _ u u (good_single hc) with
        ⟨used, kept, closing, last, h1, h2, h3, h4, h5, h6⟩ | ⟨h1, h2, -, h4, h5, h6⟩
      · rw [← e1] at h4
        rw [h4.head] at hs
        exact Option.some.inj hs
      · rw [e1, h1] at hs; cases hs

theorem range_rotate (n : ℕ) (f : ℕ → ℕ) (hf : ∀ i < n, f i < n)
    (hi : ∀ i < n, ∀ j < n, f i = f j → i = j) : List.range n ~ (List.range n).map f := by
  have h1 : ((List.range n).map f).Nodup := by
    refine List.Nodup.map_on ?_ List.nodup_range
    intro x hx y hy
    exact hi x (List.mem_range.1 hx) y (List.mem_range.1 hy)
  have h2 : (List.range n).map f ⊆ List.range n := by
    intro x hx
    obtain ⟨y, hy, rfl⟩ := List.mem_map.1 hx
    exact List.mem_range.2 (hf y (List.mem_range.1 hy))
  exact ((List.subperm_of_subset h1 h2).perm_of_length_le (by simp)).symm

/-- **C71_polygon** (a closed outline is found whatever the order of its segments): the segments of a polygon with at least
two corners that are more than a micrometre apart, straight or curved, in any order and each drawn in either direction, give
one loop with all of them and nothing added, in which every segment begins exactly where the one before it ends and the last
one ends where the first begins. -/
theorem C71_polygon (n : ℕ) (hn : 2 ≤ n) (v : ℕ → P2) (e : ℕ → Seg)
    (apart : ∀ i j, i < n → j < n → i ≠ j → ¬ Close (v i) (v j)) (he : ∀ i < n, Joins (e i) (v i) (v ((i + 1) % n)))
    (lines : List Seg) (hp : lines ~ (List.range n).map e) :
    ∃ (o : Loop) (used : List Seg), getOutline lines = some (o, []) ∧ lines ~ used ∧ List.Forall₂ SameSeg used o.segs ∧
      (∀ i : ℕ, (h : i + 1 < o.segs.length) → o.segs[i].stop = o.segs[i + 1].start) ∧
      (∀ first last, o.segs.head? = some first → o.segs.getLast? = some last → last.stop = first.start) := by
  have hlen : lines.length = n := by rw [hp.length_eq]; simp
  cases hl : leftmost lines with
  | none => rw [leftmost_none.1 hl] at hlen; simp at hlen; omega
  | some w =>
    obtain ⟨pre, s, post⟩ := w
    obtain ⟨es, -, -⟩ := leftmost_some hl
    have hps : lines ~ s :: (pre ++ post) := by rw [es]; exact List.perm_middle
    have hsm : s ∈ lines := by rw [es]; simp
    obtain ⟨k, hk, rfl⟩ := List.mem_map.1 (hp.mem_iff.1 hsm)
    have hk : k < n := List.mem_range.1 hk
    have hplain : (e k).isCircle = false := joins_plain (he k hk)
    -- a walk in one direction or the other
    obtain ⟨w, f, hw0, hw1, hwn, hf, hfi, hf0, hwa, hwe⟩ : ∃ (w : ℕ → P2) (f : ℕ → ℕ), (e k).start = w 0 ∧
        (e k).stop = w 1 ∧ w n = w 0 ∧ (∀ i < n, f i < n) ∧ (∀ i < n, ∀ j < n, f i = f j → i = j) ∧ f 0 = k ∧
        (∀ i j, i < n → j < n → i ≠ j → ¬ Close (w i) (w j)) ∧ ∀ i < n, Joins (e (f i)) (w i) (w (i + 1)) := by
      have inj : ∀ c, ∀ i < n, ∀ j < n, (c + i) % n = (c + j) % n → i = j := by
        intro c i hi j hj h
        have h : c + i ≡ c + j [MOD n] := h
        have h := Nat.ModEq.add_left_cancel' c h
        rw [Nat.ModEq, Nat.mod_eq_of_lt hi, Nat.mod_eq_of_lt hj] at h
        exact h
      have injb : ∀ c, ∀ i < n, ∀ j < n, (c + n - i) % n = (c + n - j) % n → i = j := by
        intro c i hi j hj h
        have h : c + n - i ≡ c + n - j [MOD n] := h
        have h2 := h.add_right (i + j)
        have e1 : c + n - i + (i + j) = c + n + j := by omega
        have e2 : c + n - j + (i + j) = c + n + i := by omega
        rw [e1, e2] at h2
        have h := Nat.ModEq.add_left_cancel' (c + n) h2
        rw [Nat.ModEq, Nat.mod_eq_of_lt hi, Nat.mod_eq_of_lt hj] at h
        exact h.symm
      have npos : 0 < n := by omega
      obtain ⟨-, hj⟩ := he k hk
      rcases hj with ⟨h1, h2⟩ | ⟨h1, h2⟩
      · refine ⟨fun i => v ((k + i) % n), fun i => (k + i) % n, ?_, h2, ?_, fun i _ => Nat.mod_lt _ npos, inj k, ?_, ?_, ?_⟩
        · rw [h1]; simp [Nat.mod_eq_of_lt hk]
        · simp
        · simp [Nat.mod_eq_of_lt hk]
        · intro i j hi hj hne
          exact apart _ _ (Nat.mod_lt _ npos) (Nat.mod_lt _ npos) (fun h => hne (inj k i hi j hj h))
        · intro i hi
          have := he ((k + i) % n) (Nat.mod_lt _ npos)
          rwa [Nat.mod_add_mod, Nat.add_assoc] at this
      · refine ⟨fun i => v ((k + 1 + n - i) % n), fun i => (k + n - i) % n, ?_, ?_, ?_, fun i _ => Nat.mod_lt _ npos, injb k,
          ?_, ?_, ?_⟩
        · rw [h1]; simp
        · rw [h2]
          show v k = v ((k + 1 + n - 1) % n)
          rw [show k + 1 + n - 1 = k + n by omega]; simp [Nat.mod_eq_of_lt hk]
        · show v ((k + 1 + n - n) % n) = v ((k + 1 + n - 0) % n)
          rw [show k + 1 + n - n = k + 1 by omega]; simp
        · simp [Nat.mod_eq_of_lt hk]
        · intro i j hi hj hne
          exact apart _ _ (Nat.mod_lt _ npos) (Nat.mod_lt _ npos) (fun h => hne (injb (k + 1) i hi j hj h))
        · intro i hi
          have h := he ((k + n - i) % n) (Nat.mod_lt _ npos)
          rw [Nat.mod_add_mod, show k + n - i + 1 = k + 1 + n - i by omega] at h
          show Joins _ (v ((k + 1 + n - i) % n)) (v ((k + 1 + n - (i + 1)) % n))
          rw [show k + 1 + n - (i + 1) = k + n - i by omega]
          exact ⟨h.1, h.2.symm⟩
    have hperm : pre ++ post ~ (List.range' 1 (n - 1)).map fun i => e (f i) := by
      have h1 : lines ~ (List.range n).map fun i => e (f i) := by
        refine hp.trans ?_
        have := (range_rotate n f hf hfi).map e
        rwa [List.map_map] at this
      obtain ⟨m, rfl⟩ : ∃ m, n = m + 1 := ⟨n - 1, by omega⟩
      rw [List.range_eq_range', List.range'_succ, List.map_cons, hf0] at h1
      exact List.Perm.cons_inv (hps.symm.trans h1)
    obtain ⟨kept, k1, k2, k3⟩ := assemble_walk (e := fun i => e (f i)) hwn hwa hwe (n - 1) 1 (by omega) (by omega) (by omega)
      (pre ++ post) _ (e k) (e k) (good_single hplain) hperm hw0 hw1
    have es1 : (Loop.empty.push (e k)).1.segs = [e k] := rfl
    have hget : getOutline lines = some (⟨((e k :: kept).map windOf).sum, e k :: kept⟩, []) := by
      unfold getOutline
      rw [hl]
      simp only [hplain, Bool.false_eq_true, if_false]
      rw [k1, es1]; rfl
    have hpt : ∀ i : ℕ, (h : i < (e k :: kept).length) →
        (e k :: kept)[i].start = w i ∧ (e k :: kept)[i].stop = w (i + 1) := by
      intro i hi
      cases i with
      | zero => exact ⟨hw0, hw1⟩
      | succ i =>
        have := k3 i (by simpa using hi)
        simp only [List.getElem_cons_succ]
        rw [show 1 + i = i + 1 by omega] at this
        exact this
    rcases C71_loop lines _ _ hget with ⟨used, kept', closing, first, last, h1, h2, h3, -, -, -, -, h8⟩ | ⟨h, -⟩
    · have hl1 := h1.length_eq
      have hl2 := h2.length_eq
      have hl3 : (e k :: kept).length = (kept' ++ closing).length := by rw [← h3]
      simp only [List.length_append, List.length_cons, List.append_nil] at hl1 hl3
      have hcl : closing = [] := by
        apply List.length_eq_zero_iff.1
        omega
      rw [hcl, List.append_nil] at h3
      refine ⟨_, used, hget, by simpa using h1, by rw [h3]; exact h2, ?_, ?_⟩
      · intro i hi
        rw [(hpt i (by simp at hi ⊢; omega)).2, (hpt (i + 1) hi).1]
      · intro first last hfi' hla
        obtain rfl := Option.some.inj hfi'
        rw [List.getLast?_eq_getElem?] at hla
        obtain ⟨hlt, hla⟩ := List.getElem?_eq_some_iff.1 hla
        rw [← hla, (hpt _ hlt).2, hw0, ← hwn]
        congr 1
        simp [k2]; omega
    · cases h

/-- the outline made by pushing segments one after the other -/
noncomputable def drawn (l : List Seg) : Loop := l.foldl (fun o s => (o.push s).1) Loop.empty

theorem push_all {l : List Seg} : ∀ {o : Loop} {front back : Seg}, Good o front back → (∀ s ∈ l, s.isCircle = false) →
    Chain (back :: l) → (l.foldl (fun o s => (o.push s).1) o).segs = o.segs ++ l ∧
      (l.foldl (fun o s => (o.push s).1) o).dir = ((o.segs ++ l).map windOf).sum := by
  induction l with
  | nil => intro o front back g _ _; simp [g.dir]
  | cons s l ih =>
    intro o front back g hp hc
    obtain ⟨e1, g'⟩ := g.push (hp s (by simp)) (close_comm.1 hc.1)
    have := ih g' (fun t ht => hp t (by simp [ht])) hc.2
    rw [e1] at this
    rw [List.foldl_cons, e1]
    simpa using this

theorem wind_sum : ∀ (l : List Seg) (a : Seg), (∀ s ∈ a :: l, |s.angle| ≤ 0.01) →
    (∀ i : ℕ, (h : i + 1 < (a :: l).length) → (a :: l)[i].stop = (a :: l)[i + 1].start) → ∀ z, (a :: l).getLast? = some z →
    ((a :: l).map windOf).sum = z.stop.x * z.stop.y - a.start.x * a.start.y - area2 ((a :: l).map fun s => (s.start, s.stop)) := by
  have one : ∀ a : Seg, |a.angle| ≤ 0.01 → windOf a = (a.stop.x - a.start.x) * (a.stop.y + a.start.y) := by
    intro a h
    unfold windOf
    rw [if_neg]
    have h1 := abs_le.1 h
    unfold minAng
    norm_num at h1 ⊢
    exact h1
  intro l
  induction l with
  | nil =>
    intro a ha _ z hz
    obtain rfl : a = z := by simpa using hz
    simp only [List.map_cons, List.map_nil, List.sum_cons, List.sum_nil, area2]
    rw [one a (ha a (by simp))]; ring
  | cons b l ih =>
    intro a ha hc z hz
    have := ih b (fun s hs => ha s (by simp [List.mem_cons.1 hs])) (fun i hi => hc (i + 1) (by simpa using hi)) z (by simpa using hz)
    have h0 := hc 0 (by simp)
    simp only [List.getElem_cons_zero, List.getElem_cons_succ, Nat.zero_add] at h0
    have e1 : area2 ((a :: b :: l).map fun s => (s.start, s.stop)) =
        (a.start.x * a.stop.y - a.stop.x * a.start.y) + area2 ((b :: l).map fun s => (s.start, s.stop)) := by
      simp [area2]
    rw [List.map_cons, List.sum_cons, this, e1, one a (ha a (by simp)), ← h0]; ring

/-- **C71_direction** (`IsCCW` of a polygon): an outline drawn with three or more straight lines, each beginning where the one
before it ends and the last one ending where the first begins, holds these lines, and `IsCCW` is true exactly when the area
it goes round is not negative, that is when it does not run clockwise. -/
theorem C71_direction (l : List Seg) (h3 : 3 ≤ l.length) (hs : ∀ s ∈ l, |s.angle| ≤ 0.01)
    (hc : ∀ i : ℕ, (h : i + 1 < l.length) → l[i].stop = l[i + 1].start)
    (hz : ∀ first last, l.head? = some first → l.getLast? = some last → last.stop = first.start) :
    (drawn l).segs = l ∧ ((drawn l).isCCW = true ↔ 0 ≤ area2 (l.map fun s => (s.start, s.stop))) := by
  obtain ⟨a, b, c, l, rfl⟩ : ∃ a b c r, l = a :: b :: c :: r := by
    match l, h3 with
    | a :: b :: c :: r, _ => exact ⟨a, b, c, r, rfl⟩
  have plain : ∀ s ∈ a :: b :: c :: l, s.isCircle = false := by
    intro s h
    have := hs s h
    unfold Seg.isCircle fullTurn minAng
    rw [decide_eq_false_iff_not]
    rintro ⟨-, h2⟩
    norm_num at h2 this ⊢
    linarith
  have chain : ∀ l : List Seg, (∀ i : ℕ, (h : i + 1 < l.length) → l[i].stop = l[i + 1].start) → Chain l := by
    intro l
    induction l with
    | nil => intro _; trivial
    | cons a l ih =>
      intro h
      cases l with
      | nil => trivial
      | cons b l =>
        refine ⟨?_, ih fun i hi => h (i + 1) (by simpa using hi)⟩
        have := h 0 (by simp)
        simp only [List.getElem_cons_zero, List.getElem_cons_succ, Nat.zero_add] at this
        rw [this]; exact close_refl _
  obtain ⟨p1, p2⟩ := push_all (good_single (plain a (by simp))) (fun s h => plain s (List.mem_cons_of_mem a h)) (chain _ hc)
  have es1 : (Loop.empty.push a).1.segs = [a] := rfl
  have d1 : (drawn (a :: b :: c :: l)).segs = a :: b :: c :: l := by
    unfold drawn; rw [List.foldl_cons, p1, es1]; rfl
  have d2 : (drawn (a :: b :: c :: l)).dir = ((a :: b :: c :: l).map windOf).sum := by
    unfold drawn; rw [List.foldl_cons, p2, es1]; rfl
  refine ⟨d1, ?_⟩
  obtain ⟨z, hzl⟩ : ∃ z, (a :: b :: c :: l).getLast? = some z := ⟨_, List.getLast?_eq_getLast_of_ne_nil (by simp)⟩
  have hza := hz a z rfl hzl
  rw [wind_sum _ a hs hc z hzl, hza] at d2
  have hl : (b :: c :: l).getLast?.getD a = z := by
    have : (b :: c :: l).getLast? = some z := by simpa using hzl
    rw [this]; rfl
  unfold Loop.isCCW
  rw [d1]
  simp only [hl, hza, d2, Bool.not_eq_true', decide_eq_false_iff_not, not_lt]
  constructor <;> intro h <;> linarith

/-- a square with its corners at whole numbers -/
def corner (i : ℕ) : P2 := if i = 0 then ⟨0, 0⟩ else if i = 1 then ⟨1, 0⟩ else if i = 2 then ⟨1, 1⟩ else ⟨0, 1⟩

/-- its edges, two of them drawn the other way round -/
noncomputable def edge (i : ℕ) : Seg :=
  if i = 0 then lineSeg ⟨1, 0⟩ ⟨0, 0⟩ else if i = 1 then lineSeg ⟨1, 0⟩ ⟨1, 1⟩ else if i = 2 then lineSeg ⟨0, 1⟩ ⟨1, 1⟩
  else lineSeg ⟨0, 1⟩ ⟨0, 0⟩

theorem line_joins (a b : P2) : Joins (lineSeg a b) a b ∧ Joins (lineSeg a b) b a := by
  unfold Joins lineSeg
  norm_num

theorem corner_apart : ∀ i j, i < 4 → j < 4 → i ≠ j → ¬ Close (corner i) (corner j) := by
  intro i j hi hj h
  interval_cases i <;> interval_cases j <;> first | (exact absurd rfl h) | (unfold Close gap2 corner; norm_num)

theorem edge_joins : ∀ i < 4, Joins (edge i) (corner i) (corner ((i + 1) % 4)) := by
  intro i hi
  interval_cases i
  · exact (line_joins _ _).2
  · exact (line_joins _ _).1
  · exact (line_joins _ _).2
  · exact (line_joins _ _).1

/-- the hypotheses of `C71_polygon` hold of the edges of a square out of order -/
example : ∃ (o : Loop) (used : List Seg), getOutline [edge 2, edge 0, edge 3, edge 1] = some (o, []) ∧
    [edge 2, edge 0, edge 3, edge 1] ~ used ∧ List.Forall₂ SameSeg used o.segs ∧
      (∀ i : ℕ, (h : i + 1 < o.segs.length) → o.segs[i].stop = o.segs[i + 1].start) ∧
      (∀ first last, o.segs.head? = some first → o.segs.getLast? = some last → last.stop = first.start) := by
  refine C71_polygon 4 (by norm_num) corner edge corner_apart edge_joins _ ?_
  have h : [2, 0, 3, 1] ~ List.range 4 := by decide
  exact h.map edge

/-- the hypotheses of `C71_direction` hold of a triangle that runs clockwise, and `IsCCW` is false -/
example : (drawn [lineSeg ⟨0, 0⟩ ⟨0, 1⟩, lineSeg ⟨0, 1⟩ ⟨1, 0⟩, lineSeg ⟨1, 0⟩ ⟨0, 0⟩]).isCCW = false := by
  have := (C71_direction [lineSeg ⟨0, 0⟩ ⟨0, 1⟩, lineSeg ⟨0, 1⟩ ⟨1, 0⟩, lineSeg ⟨1, 0⟩ ⟨0, 0⟩] (by simp)
    (by intro s hs; simp only [List.mem_cons, List.not_mem_nil, or_false] at hs
        rcases hs with rfl | rfl | rfl <;> (simp only [lineSeg]; norm_num))
    (by intro i hi; have hi' : i + 1 < 3 := by simpa using hi
        have hi2 : i < 2 := by omega
        interval_cases i <;> rfl)
    (by intro f l hf hl; cases hf; cases hl; rfl)).2
  rw [← Bool.not_eq_true, this]
  simp only [area2, lineSeg]
  norm_num

theorem minX_line (a b : P2) : (lineSeg a b).minX = min a.x b.x := by unfold Seg.minX lineSeg; simp

theorem assemble_stuck {o : Loop} {front back : Seg} {lines : List Seg} (g : Good o front back)
    (h : ∀ s ∈ lines, ¬ Close s.start back.stop ∧ ¬ Close s.stop back.stop) :
    assemble o lines = if o.segs.length > 1 ∨ front.angle < -minAng ∨ front.angle > minAng then
      ((o.push (lineSeg back.stop front.start)).1, lines) else (Loop.empty, lines) := by
  rw [assemble]
  simp only [g.head, g.last, Option.getD_some]
  split
  · rename_i s rest hs
    simp only [g.head, g.last, Option.getD_some] at hs
    obtain ⟨⟨pre, post, e1, -⟩, hf, -⟩ := takeFirst_some hs
    exact absurd (matches_iff.1 hf) (h s (by rw [e1]; simp)).1
  · split
    · rename_i s rest hs
      simp only [g.head, g.last, Option.getD_some] at hs
      obtain ⟨⟨pre, post, e1, -⟩, hf, -⟩ := takeFirst_some hs
      exact absurd (matches_iff.1 hf) (h s (by rw [e1]; simp)).2
    · rfl

/-- **C71_depends_on_direction** (against "the direction in which a segment is drawn does not matter"): two sides of a triangle
with corners (0, 0), (1, 0) and (2, 1) are closed by the third side when the first is drawn from (0, 0) to (1, 0), but when
it is drawn from (1, 0) to (0, 0) it is thrown away and no outline is returned. -/
theorem C71_depends_on_direction :
    (∃ d, getOutline [lineSeg ⟨0, 0⟩ ⟨1, 0⟩, lineSeg ⟨1, 0⟩ ⟨2, 1⟩] =
      some (⟨d, [lineSeg ⟨0, 0⟩ ⟨1, 0⟩, lineSeg ⟨1, 0⟩ ⟨2, 1⟩, lineSeg ⟨2, 1⟩ ⟨0, 0⟩]⟩, [])) ∧
    getOutline [lineSeg ⟨1, 0⟩ ⟨0, 0⟩, lineSeg ⟨1, 0⟩ ⟨2, 1⟩] = some (Loop.empty, [lineSeg ⟨1, 0⟩ ⟨2, 1⟩]) := by
  have n1 : ¬ Close ⟨1, 0⟩ ⟨0, 0⟩ := by unfold Close gap2; norm_num
  have n2 : ¬ Close ⟨2, 1⟩ ⟨0, 0⟩ := by unfold Close gap2; norm_num
  have n3 : ¬ Close ⟨0, 0⟩ ⟨2, 1⟩ := fun h => n2 (close_comm.1 h)
  have a0 : ∀ p q : P2, ¬ ((lineSeg p q).angle < -minAng ∨ (lineSeg p q).angle > minAng) := by
    intro p q; unfold lineSeg minAng; norm_num
  constructor
  · have hl : leftmost [lineSeg ⟨0, 0⟩ ⟨1, 0⟩, lineSeg ⟨1, 0⟩ ⟨2, 1⟩] = some ([], lineSeg ⟨0, 0⟩ ⟨1, 0⟩, [lineSeg ⟨1, 0⟩ ⟨2, 1⟩]) := by
      unfold leftmost leftmost leftmost
      simp only [minX_line]
      rw [if_neg (by norm_num)]
    unfold getOutline
    rw [hl]
    simp only [line_circle, Bool.false_eq_true, if_false, List.nil_append]
    have g := good_single (line_circle ⟨0, 0⟩ ⟨1, 0⟩)
    have t1 : takeFirst (fun s => s.matchesStart ⟨1, 0⟩) [lineSeg ⟨1, 0⟩ ⟨2, 1⟩] = some (lineSeg ⟨1, 0⟩ ⟨2, 1⟩, []) := by
      unfold takeFirst
      have : (lineSeg ⟨1, 0⟩ ⟨2, 1⟩).matchesStart ⟨1, 0⟩ = true := matches_iff.2 (close_refl _)
      simp [this, line_circle]
    obtain ⟨e1, g'⟩ := g.push (line_circle ⟨1, 0⟩ ⟨2, 1⟩) (close_refl _)
    rw [assemble]
    simp only [g.head, g.last, Option.getD_some]
    split
    · rename_i s rest hs
      simp only [g.head, g.last, Option.getD_some] at hs
      have hs : takeFirst (fun s => s.matchesStart ⟨1, 0⟩) [lineSeg ⟨1, 0⟩ ⟨2, 1⟩] = some (s, rest) := hs
      rw [t1] at hs
      obtain ⟨rfl, rfl⟩ := Prod.mk.inj (Option.some.inj hs)
      rw [g'.last]
      simp only [Option.getD_some]
      rw [if_neg (by intro h; exact n3 (matches_iff.1 h)), assemble_stuck g' (by simp)]
      rw [if_pos (by left; rw [e1]; decide)]
      obtain ⟨e2, -⟩ := g'.push (line_circle ⟨2, 1⟩ ⟨0, 0⟩) (close_refl _)
      refine ⟨windOf (lineSeg ⟨0, 0⟩ ⟨1, 0⟩) + windOf (lineSeg ⟨1, 0⟩ ⟨2, 1⟩) + windOf (lineSeg ⟨2, 1⟩ ⟨0, 0⟩), ?_⟩
      rw [show (lineSeg ⟨1, 0⟩ ⟨2, 1⟩).stop = ⟨2, 1⟩ from rfl, show (lineSeg ⟨0, 0⟩ ⟨1, 0⟩).start = ⟨0, 0⟩ from rfl, e2, e1]
      simp [Loop.push, Loop.empty]
    · rename_i hs
      simp only [g.head, g.last, Option.getD_some] at hs
      have hs : takeFirst (fun s => s.matchesStart ⟨1, 0⟩) [lineSeg ⟨1, 0⟩ ⟨2, 1⟩] = none := hs
      rw [t1] at hs; cases hs
  · have hl : leftmost [lineSeg ⟨1, 0⟩ ⟨0, 0⟩, lineSeg ⟨1, 0⟩ ⟨2, 1⟩] = some ([], lineSeg ⟨1, 0⟩ ⟨0, 0⟩, [lineSeg ⟨1, 0⟩ ⟨2, 1⟩]) := by
      unfold leftmost leftmost leftmost
      simp only [minX_line]
      rw [if_neg (by norm_num)]
    unfold getOutline
    rw [hl]
    simp only [line_circle, Bool.false_eq_true, if_false, List.nil_append]
    have g := good_single (line_circle ⟨1, 0⟩ ⟨0, 0⟩)
    rw [assemble_stuck g (by intro s hs; rw [List.mem_singleton.1 hs]; exact ⟨n1, n2⟩), if_neg]
    rintro (h | h)
    · exact absurd h (by decide)
    · exact a0 _ _ h

end Iges.Props.IdfLoop
