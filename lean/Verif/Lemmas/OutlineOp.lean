import Verif.Model.OutlineOp
import Verif.Props.Outline
import Verif.Props.SegSplit
/- Operations on outlines: rings of segments, splitting at one point. -/
namespace Iges.Geo
open Spec Iges.Props

theorem contiguousFrom_append (prev : Seg) (a b : List Seg) :
    contiguousFrom prev (a ++ b) = (contiguousFrom prev a && contiguousFrom (a.getLast?.getD prev) b) := by
  induction a generalizing prev with
  | nil => simp [contiguousFrom]
  | cons s a ih =>
    simp only [List.cons_append, contiguousFrom, ih, Bool.and_assoc]
    cases a with
    | nil => simp
    | cons t a => simp [List.getLast?_cons]

/-- the segments run round, up to the tolerance -/
def Ring (l : List Seg) : Prop := ∃ e, l.getLast? = some e ∧ contiguousFrom e l = true

theorem ring_contiguous {o : Outline} (hc : o.closed = true) (hr : Ring o.segs) : isContiguous o = true := by
  obtain ⟨e, h1, h2⟩ := hr
  unfold isContiguous
  rw [h1]
  cases hs : o.segs with
  | nil => rw [hs] at h1; simp at h1
  | cons s r =>
    rw [hs] at h2
    simp only [hc, Bool.not_true, Bool.false_eq_true, if_false]
    split
    · rfl
    · exact h2

theorem contiguous_ring {o : Outline} (hk : o.segs.head?.map Seg.kind ≠ some .circle) (h : isContiguous o = true) :
    o.closed = true ∧ Ring o.segs := by
  unfold isContiguous at h
  cases hs : o.segs with
  | nil => rw [hs] at h; simp at h
  | cons s r =>
    rw [hs] at h hk
    cases hl : (s :: r).getLast? with
    | none => simp at hl
    | some e =>
      rw [hl] at h
      simp only at h
      cases hc : o.closed
      · rw [hc] at h; simp at h
      · rw [hc] at h
        have : s.kind ≠ .circle := by simpa using hk
        simp only [Bool.not_true, Bool.false_eq_true, if_false, this] at h
        exact ⟨rfl, e, hl, h⟩

/-- a line or an arc split at one point -/
theorem split_ends {s s' : Seg} {l : List Seg} {p : Point ℝ} (hk : s.kind = .line ∨ s.kind = .arc)
    (hz : s.kind = .line → p.z = 0 ∧ s.stop.z = 0) (h : s.split [p] = some (s', l)) :
    ∃ t, l = [t] ∧ s'.start = s.start ∧ s'.stop = p ∧ t.start = p ∧ t.stop = s.stop ∧ s'.kind = s.kind ∧
      t.kind = s.kind := by
  obtain ⟨-, ⟨k, h⟩ | ⟨k, h⟩ | ⟨k, -⟩⟩ := split_cases h
  · by_cases hp : PointMatches p s.start 1e-8 = true ∨ PointMatches p s.stop 1e-8 = true
    · have : ([p].filter fun p => !(PointMatches p s.start 1e-8 || PointMatches p s.stop 1e-8)) = [] := by
        rcases hp with hp | hp <;> simp [hp]
      rw [this] at h; simp [splitLine] at h
    · push Not at hp
      have e : ([p].filter fun p => !(PointMatches p s.start 1e-8 || PointMatches p s.stop 1e-8)) = [p] := by
        rw [List.filter_eq_self]; simpa using hp
      rw [e] at h
      simp only [splitLine] at h
      split at h
      · obtain ⟨rfl, rfl⟩ := Prod.mk.inj (Option.some.inj h)
        have h2 : PointMatches p s.stop 1e-8 = false := by simpa using hp.2
        obtain ⟨z1, z2⟩ := hz k
        have : setLine p s.stop = ({ Seg.init with start := p, stop := s.stop, kind := .line }, true) := by
          rcases setLine_cases p s.stop with h | ⟨-, -, -, h⟩
          · unfold setLine at h; simp [z1, z2, h2] at h
          · exact h
        rw [this]
        exact ⟨_, rfl, rfl, rfl, rfl, rfl, rfl, k.symm⟩
      · simp at h
  · by_cases hp : PointMatches p s.start 1e-8 = true ∨ PointMatches p s.stop 1e-8 = true
    · have : ([p].filter fun p => !(PointMatches p s.start 1e-8 || PointMatches p s.stop 1e-8)) = [] := by
        rcases hp with hp | hp <;> simp [hp]
      rw [this] at h; simp [splitArc] at h
    · push Not at hp
      have e : ([p].filter fun p => !(PointMatches p s.start 1e-8 || PointMatches p s.stop 1e-8)) = [p] := by
        rw [List.filter_eq_self]; simpa using hp
      rw [e] at h
      simp only [splitArc] at h
      split at h
      · obtain ⟨rfl, rfl⟩ := Prod.mk.inj (Option.some.inj h)
        exact ⟨_, rfl, rfl, rfl, rfl, rfl, rfl, k.symm⟩
      · simp at h
  · rcases hk with hk | hk <;> rw [k] at hk <;> cases hk

theorem split_one_circle {s : Seg} {p : Point ℝ} (hk : s.kind = .circle) : s.split [p] = none := by
  unfold Seg.split; simp [hk, splitCircle]

/-- what `splitOne` does when it works -/
theorem splitOne_cases {segs l : List Seg} {i : ℕ} {p : Point ℝ} (h : splitOne segs i p = (l, true)) :
    ∃ s s' t, segs[i]? = some s ∧ s.split [p] = some (s', [t]) ∧ l = segs.take i ++ s' :: t :: segs.drop (i + 1) := by
  unfold splitOne at h
  cases hs : segs[i]? with
  | none => rw [hs] at h; simp at h
  | some s =>
    rw [hs] at h
    simp only [Option.bind_some] at h
    cases hp : s.split [p] with
    | none => rw [hp] at h; simp at h
    | some r =>
      obtain ⟨s', m⟩ := r
      rw [hp] at h
      match m, h with
      | [], h => simp at h
      | [t], h => exact ⟨s, s', t, rfl, hp, by simpa using (Prod.mk.inj h).1.symm⟩
      | _ :: _ :: _, h => simp at h

theorem getElem?_decomp {α : Type} {l : List α} {i : ℕ} {a : α} (h : l[i]? = some a) :
    l = l.take i ++ a :: l.drop (i + 1) ∧ i < l.length := by
  obtain ⟨hi, rfl⟩ := List.getElem?_eq_some_iff.1 h
  exact ⟨by simp, hi⟩

/-- replacing a segment by two that run end to end keeps a ring -/
theorem ring_replace {a b : List Seg} {s s' t : Seg} (h : Ring (a ++ s :: b)) (h1 : s'.start = s.start)
    (h2 : PointMatches t.start s'.stop 1e-8 = true) (h3 : t.stop = s.stop) : Ring (a ++ s' :: t :: b) := by
  obtain ⟨e, he, hc⟩ := h
  rw [contiguousFrom_append] at hc
  simp only [contiguousFrom, Bool.and_eq_true] at hc
  obtain ⟨c1, c2, c3⟩ := hc
  have cong : ∀ (u v : Seg) (l : List Seg), u.stop = v.stop → contiguousFrom u l = contiguousFrom v l := by
    intro u v l huv; cases l <;> simp [contiguousFrom, huv]
  cases b with
  | nil =>
    have : e = s := by simpa using he.symm
    subst this
    refine ⟨t, by simp, ?_⟩
    rw [contiguousFrom_append, cong t e a h3, c1]
    cases a with
    | nil => simp only [List.getLast?_nil, Option.getD_none] at c2 ⊢; simp [contiguousFrom, h1, h3, c2, h2]
    | cons x a =>
      simp only [List.getLast?_cons, Option.getD_some] at c2 ⊢
      simp [contiguousFrom, h1, c2, h2]
  | cons y b =>
    have he' : (y :: b).getLast? = some e := by
      simpa [List.getLast?_append, List.getLast?_cons] using he
    refine ⟨e, ?_, ?_⟩
    · rw [List.getLast?_append]; simp only [List.getLast?_cons] at he' ⊢; simpa using he'
    · rw [contiguousFrom_append, c1]
      simp only [contiguousFrom, h1, c2, h2, Bool.true_and]
      rw [cong s t _ h3.symm] at c3
      simpa [contiguousFrom] using c3

/-- a segment inserted where it fits -/
theorem ring_insert {a b : List Seg} {s t t' sp : Seg} (h : Ring (a ++ s :: t :: b))
    (h1 : PointMatches sp.start s.stop 1e-8 = true) (h2 : PointMatches t'.start sp.stop 1e-8 = true) (h3 : t'.stop = t.stop) :
    Ring (a ++ s :: sp :: t' :: b) := by
  obtain ⟨e, he, hc⟩ := h
  have cong : ∀ (u v : Seg) (l : List Seg), u.stop = v.stop → contiguousFrom u l = contiguousFrom v l := by
    intro u v l huv; cases l <;> simp [contiguousFrom, huv]
  rw [contiguousFrom_append] at hc
  simp only [contiguousFrom, Bool.and_eq_true] at hc
  obtain ⟨c1, c2, c3, c4⟩ := hc
  cases b with
  | nil =>
    have : e = t := by simpa using he.symm
    subst this
    refine ⟨t', by simp, ?_⟩
    rw [contiguousFrom_append, cong t' e a h3, c1]
    cases a with
    | nil =>
      simp only [List.getLast?_nil, Option.getD_none] at c2 ⊢
      simp [contiguousFrom, h3, c2, h1, h2]
    | cons x a =>
      simp only [List.getLast?_cons, Option.getD_some] at c2 ⊢
      simp [contiguousFrom, c2, h1, h2]
  | cons y b =>
    have he' : (y :: b).getLast? = some e := by
      simpa [List.getLast?_append, List.getLast?_cons] using he
    refine ⟨e, ?_, ?_⟩
    · rw [List.getLast?_append]; simp only [List.getLast?_cons] at he' ⊢; simpa using he'
    · rw [contiguousFrom_append, c1]
      simp only [contiguousFrom, c2, h1, h2, Bool.true_and]
      rw [cong t t' _ h3.symm] at c4
      simpa [contiguousFrom] using c4

/-- a line or an arc split at two points: where it starts and ends -/
theorem split_two_ends {s s' m t : Seg} {p q : Point ℝ} (hk : s.kind ≠ .circle)
    (hz : s.kind = .line → p.z = 0 ∧ q.z = 0 ∧ s.stop.z = 0) (_hpq : PointMatches p q 1e-8 = false)
    (h : s.split [p, q] = some (s', [m, t])) : s'.start = s.start ∧ t.stop = s.stop := by
  obtain ⟨-, ⟨k, h⟩ | ⟨k, h⟩ | ⟨k, -⟩⟩ := split_cases h
  · have hall : ∀ x ∈ [p, q].filter fun p => !(PointMatches p s.start 1e-8 || PointMatches p s.stop 1e-8),
        x.z = 0 ∧ PointMatches x s.stop 1e-8 = false := by
      intro x hx
      obtain ⟨hx1, hx2⟩ := List.mem_filter.1 hx
      simp only [Bool.not_eq_true', Bool.or_eq_false_iff] at hx2
      refine ⟨?_, hx2.2⟩
      simp only [List.mem_cons, List.not_mem_nil, or_false] at hx1
      rcases hx1 with rfl | rfl
      · exact (hz k).1
      · exact (hz k).2.1
    generalize ([p, q].filter fun p => !(PointMatches p s.start 1e-8 || PointMatches p s.stop 1e-8)) = w at *
    match w, h, hall with
    | [], h, _ => simp [splitLine] at h
    | [_], h, _ => simp only [splitLine] at h; split at h <;> simp at h
    | _ :: _ :: _ :: _, h, _ => simp [splitLine] at h
    | [u, v], h, hall =>
      simp only [splitLine] at h
      split at h
      swap
      · cases h
      have key : ∀ x ∈ [u, v], (setLine x s.stop).1.stop = s.stop := by
        intro x hx
        obtain ⟨a, b⟩ := hall x hx
        rcases setLine_cases x s.stop with h | ⟨-, -, -, h⟩
        · unfold setLine at h; simp [a, (hz k).2.2, b] at h
        · rw [h]
      simp only [Option.some.injEq, Prod.mk.injEq, List.cons.injEq, and_true] at h
      obtain ⟨rfl, -, rfl⟩ := h
      refine ⟨rfl, ?_⟩
      split
      · exact key v (by simp)
      · exact key u (by simp)
  · generalize ([p, q].filter fun p => !(PointMatches p s.start 1e-8 || PointMatches p s.stop 1e-8)) = w at *
    match w, h with
    | [], h => simp [splitArc] at h
    | [_], h => simp only [splitArc] at h; split at h <;> simp at h
    | _ :: _ :: _ :: _, h => simp [splitArc] at h
    | [u, v], h =>
      simp only [splitArc] at h
      split at h
      swap
      · cases h
      simp only [Option.some.injEq, Prod.mk.injEq, List.cons.injEq, and_true] at h
      obtain ⟨rfl, -, rfl⟩ := h
      exact ⟨rfl, rfl⟩
  · exact absurd k hk

/-- `splitOne` keeps a ring -/
theorem splitOne_ring {segs l : List Seg} {i : ℕ} {p : Point ℝ} (h : splitOne segs i p = (l, true)) (hr : Ring segs)
    (hz : p.z = 0) (hm : ∀ s ∈ segs, s.kind = .line → s.stop.z = 0) :
    Ring l ∧ ∀ s ∈ l, s.kind = .line → s.stop.z = 0 := by
  obtain ⟨s, s', t, h1, h2, rfl⟩ := splitOne_cases h
  obtain ⟨h3, -⟩ := getElem?_decomp h1
  have hs : s ∈ segs := List.mem_of_getElem? h1
  have hk : s.kind = .line ∨ s.kind = .arc := by
    cases k : s.kind
    · unfold Seg.split at h2; simp [k] at h2
    · simp
    · simp
    · rw [split_one_circle k] at h2; cases h2
  obtain ⟨t', e, a1, a2, a3, a4, a5, a6⟩ := split_ends hk (fun k => ⟨hz, hm s hs k⟩) h2
  obtain rfl : t = t' := by simpa using e
  refine ⟨?_, ?_⟩
  · rw [h3] at hr
    exact ring_replace hr a1 (matches_self_of_eq (by rw [a2, a3])) a4
  · intro u hu ku
    simp only [List.mem_append, List.mem_cons] at hu
    rcases hu with hu | rfl | rfl | hu
    · exact hm u (List.mem_of_mem_take hu) ku
    · rw [a2]; exact hz
    · rw [a4]; exact hm s hs (by rw [← a6]; exact ku)
    · exact hm u (List.mem_of_mem_drop hu) ku

theorem ring_suffix {prev : Seg} {a b : List Seg} (h : contiguousFrom prev (a ++ b) = true) :
    contiguousFrom (a.getLast?.getD prev) b = true := by
  rw [contiguousFrom_append, Bool.and_eq_true] at h; exact h.2

theorem contiguousFrom_dropWhile {prev sp : Seg} {l : List Seg} {q : Point ℝ} (hc : contiguousFrom prev l = true)
    (hq : sp.stop = q) :
    contiguousFrom sp (l.dropWhile fun s => !PointMatches s.start q 1e-8) = true := by
  have e := List.takeWhile_append_dropWhile (p := fun s : Seg => !PointMatches s.start q 1e-8) (l := l)
  generalize hd : l.dropWhile (fun s => !PointMatches s.start q 1e-8) = d at *
  cases d with
  | nil => rfl
  | cons s d =>
    have hs : PointMatches s.start q 1e-8 = true := by
      have := List.head_dropWhile_not (fun s : Seg => !PointMatches s.start q 1e-8) (l := l) (by rw [hd]; simp)
      simp only [hd, List.head_cons, Bool.not_eq_false'] at this
      exact this
    rw [← e] at hc
    have := ring_suffix hc
    simp only [contiguousFrom, Bool.and_eq_true] at this ⊢
    exact ⟨by rw [hq]; exact hs, this.2⟩

/-- the erasing loop leaves a ring -/
theorem eraseTo_ring {segs l : List Seg} {i : ℕ} {q : Point ℝ} {s sp : Seg} (hr : Ring segs) (hi : segs[i]? = some s)
    (hs : PointMatches sp.start s.stop 1e-8 = true) (hq : sp.stop = q) (h : eraseTo segs i q sp = some l) : Ring l := by
  obtain ⟨e, he, hc⟩ := hr
  have hlen : i < segs.length := (List.getElem?_eq_some_iff.1 hi).1
  have hlast : (segs.take (i + 1)).getLast? = some s := by
    rw [List.getLast?_take]
    simp [hi]
  unfold eraseTo at h
  simp only at h
  have hdec := List.take_append_drop (i + 1) segs
  rw [← hdec, contiguousFrom_append, hlast, Bool.and_eq_true] at hc
  obtain ⟨c1, c2⟩ := hc
  simp only [Option.getD_some] at c2
  split at h
  · rename_i hne
    obtain rfl := Option.some.inj h
    refine ⟨e, ?_, ?_⟩
    · have : (segs.drop (i + 1)).getLast? = some e := by
        have h0 : segs.drop (i + 1) ≠ [] := by
          intro h0; apply hne; simp [h0]
        rw [← hdec, List.getLast?_append] at he
        cases hd : (segs.drop (i + 1)).getLast? with
        | none => exact absurd (List.getLast?_eq_none_iff.1 hd) h0
        | some x => rw [hd] at he; simpa using he
      rw [List.getLast?_append, List.getLast?_cons]
      have hsuf : (List.dropWhile (fun s : Seg => !PointMatches s.start q 1e-8) (segs.drop (i + 1))).getLast? = some e := by
        have e2 := List.takeWhile_append_dropWhile (p := fun s : Seg => !PointMatches s.start q 1e-8) (l := segs.drop (i + 1))
        rw [← e2, List.getLast?_append] at this
        cases hd : (List.dropWhile (fun s : Seg => !PointMatches s.start q 1e-8) (segs.drop (i + 1))).getLast? with
        | none => exact absurd (List.getLast?_eq_none_iff.1 hd) hne
        | some x => rw [hd] at this; simpa using this
      rw [hsuf]; rfl
    · rw [contiguousFrom_append, c1, hlast]
      simp only [contiguousFrom, Option.getD_some, hs, Bool.true_and]
      exact contiguousFrom_dropWhile c2 hq
  · split at h
    · simp at h
    · rename_i hne
      obtain rfl := Option.some.inj h
      have hsuf : (List.dropWhile (fun s : Seg => !PointMatches s.start q 1e-8) (segs.take (i + 1))).getLast? = some s := by
        have e2 := List.takeWhile_append_dropWhile (p := fun s : Seg => !PointMatches s.start q 1e-8) (l := segs.take (i + 1))
        rw [← e2, List.getLast?_append] at hlast
        cases hd : (List.dropWhile (fun s : Seg => !PointMatches s.start q 1e-8) (segs.take (i + 1))).getLast? with
        | none => exact absurd (List.getLast?_eq_none_iff.1 hd) hne
        | some x => rw [hd] at hlast; simpa using hlast
      refine ⟨s, ?_, ?_⟩
      · rw [List.getLast?_cons, hsuf]; rfl
      · simp only [contiguousFrom, hs, Bool.true_and]
        exact contiguousFrom_dropWhile c1 hq

/-- where the points of the outline on the circle come from -/
theorem circleHits_spec {c : Seg} {opsub : Bool} {k : ℕ} {segs : List Seg} {hits : List (Point ℝ × ℕ)}
    (h : circleHits c opsub k segs = .points hits) :
    ∀ x ∈ hits, ∃ n s, x.2 = k + n ∧ segs[n]? = some s ∧ x.1 ∈ (intersections s c).pts ∧
      (intersections s c).ret = true ∧ (intersections s c).flag.fine = true := by
  induction segs generalizing k hits with
  | nil => simp only [circleHits, Found.points.injEq] at h; subst h; simp
  | cons s rest ih =>
    have step : ∀ {l}, circleHits c opsub (k + 1) rest = .points l → ∀ x ∈ l, ∃ n s', x.2 = k + n ∧
        (s :: rest)[n]? = some s' ∧ x.1 ∈ (intersections s' c).pts ∧ (intersections s' c).ret = true ∧
        (intersections s' c).flag.fine = true := by
      intro l hl x hx
      obtain ⟨n, s', h1, h2, h3⟩ := ih hl x hx
      exact ⟨n + 1, s', by omega, by simpa using h2, h3⟩
    simp only [circleHits] at h
    split at h
    · rename_i hret
      split at h
      · cases h
      · rename_i hfine
        cases hr : circleHits c opsub (k + 1) rest with
        | apart => rw [hr] at h; cases h
        | bad => rw [hr] at h; cases h
        | points l =>
          rw [hr] at h
          simp only [Found.points.injEq] at h
          subst h
          intro x hx
          rw [List.mem_append] at hx
          rcases hx with hx | hx
          · obtain ⟨q, hq, rfl⟩ := List.mem_map.1 hx
            exact ⟨0, s, by simp, by simp, hq, hret, by simpa using hfine⟩
          · exact step hr x hx
    · split at h
      · exact step h
      · split at h <;> cases h

theorem distinct_sub {α : Type} (acc l : List (Point ℝ × α)) : ∀ x ∈ distinct acc l, x ∈ acc ∨ x ∈ l := by
  induction l generalizing acc with
  | nil => intro x hx; simp only [distinct] at hx; exact Or.inl hx
  | cons y l ih =>
    intro x hx
    simp only [distinct] at hx
    split at hx
    · rcases ih _ x hx with h | h
      · exact Or.inl h
      · exact Or.inr (by simp [h])
    · rcases ih _ x hx with h | h
      · rw [List.mem_append] at h
        rcases h with h | h
        · exact Or.inl h
        · exact Or.inr (by simp at h; simp [h])
      · exact Or.inr (by simp [h])

theorem distinct_pairwise {α : Type} (acc l : List (Point ℝ × α))
    (h : acc.Pairwise fun x y => PointMatches x.1 y.1 1e-8 = false) :
    (distinct acc l).Pairwise fun x y => PointMatches x.1 y.1 1e-8 = false := by
  induction l generalizing acc with
  | nil => simpa [distinct] using h
  | cons y l ih =>
    simp only [distinct]
    split
    · exact ih _ h
    · rename_i hy
      apply ih
      rw [List.pairwise_append]
      refine ⟨h, by simp, ?_⟩
      intro a ha b hb
      obtain rfl : b = y := by simpa using hb
      simp only [List.any_eq_true, not_exists, not_and, Bool.not_eq_true] at hy
      exact hy a ha

/-- an operation with a circle that succeeded: the two points, in the order in which the outline is changed between them;
the middle of the arc counterclockwise from `q` to `p` (or what is opposite to the middle of the other arc) was found
inside, and the middle of the other arc outside -/
theorem opCircle_true {o : Outline} {a : Option Seg} {opsub : Bool} (h : (opCircle o a opsub).ret = true) :
    ∃ c hits p q, a = some c ∧ c.kind = .circle ∧ o.closed = true ∧ circleHits c opsub 0 o.segs = .points hits ∧
      PointMatches p.1 q.1 1e-8 = false ∧
      ((distinct [] hits = [q, p] ∧ isInside o (pointAt c (midAngle c.center q.1 p.1)) = some true ∧
        isInside o (pointAt c (midAngle c.center q.1 p.1 + Real.pi)) = some false) ∨
       (distinct [] hits = [p, q] ∧ isInside o (pointAt c (midAngle c.center p.1 q.1)) = some false ∧
        isInside o (pointAt c (midAngle c.center p.1 q.1 + Real.pi)) = some true)) ∧
      opCircle o a opsub = changeOutline { o with boxOk := false } c opsub p q (isEndOf o.segs hits p.1)
        (isEndOf o.segs hits q.1) := by
  have hin : ∀ x, isInside { o with boxOk := false } x = isInside o x := fun x => rfl
  generalize hR : opCircle o a opsub = R at h ⊢
  unfold opCircle at hR
  simp only [hin] at hR
  split at hR
  · subst hR; cases h
  rename_i hcl
  cases a with
  | none => simp only at hR; subst hR; cases h
  | some c =>
    simp only at hR
    split at hR
    · subst hR; cases h
    rename_i hk
    cases hh : circleHits c opsub 0 o.segs with
    | apart => rw [hh] at hR; subst hR; cases h
    | bad => rw [hh] at hR; subst hR; cases h
    | points hits =>
      rw [hh] at hR
      simp only at hR
      have hpw := distinct_pairwise [] hits List.Pairwise.nil
      match hd : distinct [] hits, hR, hpw with
      | [], hR, _ => subst hR; cases h
      | [_], hR, _ => subst hR; cases h
      | _ :: _ :: _ :: _, hR, _ => subst hR; cases h
      | [p, q], hR, hpw =>
        simp only at hR
        have hpq : PointMatches p.1 q.1 1e-8 = false := by simpa using hpw
        cases h1 : isInside o (pointAt c (midAngle c.center p.1 q.1)) with
        | none => rw [h1] at hR; simp only at hR; subst hR; cases h
        | some b1 =>
          cases h2 : isInside o (pointAt c (midAngle c.center p.1 q.1 + Real.pi)) with
          | none => rw [h1, h2] at hR; simp only at hR; subst hR; cases h
          | some b2 =>
            rw [h1, h2] at hR
            simp only at hR
            split at hR
            · subst hR; cases h
            rename_i hne
            cases b1 with
            | true =>
              have : b2 = false := by cases b2 <;> simp_all
              subst this
              simp only [if_true] at hR
              refine ⟨c, hits, q, p, rfl, by simpa using hk, by simpa using hcl, hh, ?_, Or.inl ⟨hd, h1, h2⟩, hR.symm⟩
              rw [C51_symmetric]; exact hpq
            | false =>
              have : b2 = true := by cases b2 <;> simp_all
              subst this
              simp only [Bool.false_eq_true, if_false] at hR
              exact ⟨c, hits, p, q, rfl, by simpa using hk, by simpa using hcl, hh, hpq, Or.inr ⟨hd, h1, h2⟩, hR.symm⟩

theorem intercepts_flat (c : Point ℝ) (r : ℝ) (c2 : Point ℝ) (r2 d : ℝ) :
    (intercepts c r c2 r2 d).1.z = 0 ∧ (intercepts c r c2 r2 d).2.z = 0 := by
  unfold intercepts
  simp only
  split <;> exact ⟨rfl, rfl⟩

theorem skip_empty {P : Prop} {_ : Decidable P} {f : Flag} {b : Bool} {X : Hits} {p : Point ℝ}
    (h : p ∈ (if P then (⟨[], f, b⟩ : Hits) else X).pts) : p ∈ X.pts := by
  split at h
  · simp at h
  · exact h

theorem arc_pts {P Q R S : Prop} {_ : Decidable P} {_ : Decidable Q} {_ : Decidable R} {_ : Decidable S} {u v p : Point ℝ}
    (h : p ∈ (if P then (if Q then (⟨[v, u], .none, true⟩ : Hits) else ⟨[u, v], .none, true⟩)
      else if R then ⟨[u], .none, true⟩ else if S then ⟨[v], .none, true⟩ else ⟨[], .none, false⟩).pts) : p = u ∨ p = v := by
  split at h
  · split at h <;> simp at h <;> tauto
  split at h
  · simp at h; exact Or.inl h
  split at h
  · simp at h; exact Or.inr h
  · simp at h

theorem pickCircle_mem {q : Point ℝ × Flag × ℝ} {rest : List (Point ℝ × Flag × ℝ)} {p : Point ℝ}
    (h : p ∈ (pickCircle q rest).pts) : p = q.1 ∨ ∃ q' ∈ rest, p = q'.1 := by
  unfold pickCircle at h
  cases rest with
  | nil => left; simpa using h
  | cons q' r =>
    dsimp only at h
    by_cases hs : (if q.2.2 ≥ 0 then q'.2.2 ≥ 0 ∧ q'.2.2 < q.2.2 else q'.2.2 ≥ 0 ∨ q'.2.2 < q.2.2)
    · rw [if_pos hs] at h
      simp only [List.mem_cons, List.not_mem_nil, or_false] at h
      rcases h with h | h
      · exact Or.inr ⟨q', by simp, h⟩
      · exact Or.inl h
    · rw [if_neg hs] at h
      simp only [List.mem_cons, List.not_mem_nil, or_false] at h
      rcases h with h | h
      · exact Or.inl h
      · exact Or.inr ⟨q', by simp, h⟩

/-- the points found on a circle lie in the plane -/
theorem hit_flat {s c : Seg} (hk : c.kind = .circle) (hf : (intersections s c).flag.fine = true) :
    ∀ p ∈ (intersections s c).pts, p.z = 0 := by
  have hcand : ∀ (c' arcS arcE : Point ℝ) (full : Bool) (lS lE : Point ℝ) (t : ℝ),
      (candidate c' arcS arcE full lS lE t).1.z = 0 := fun _ _ _ _ _ _ _ => rfl
  intro p hp
  cases ks : s.kind with
  | none => simp [intersections, ks] at hp
  | line =>
    have e : intersections s c = checkArcLine s c := by simp [intersections, ks, hk]
    rw [e] at hp
    unfold checkArcLine arcLine at hp
    simp only [ks, hk, reduceCtorEq, or_self, if_false, beq_self_eq_true, if_true, and_true] at hp
    split at hp
    · split at hp
      · simp at hp
      · obtain rfl : p = _ := by simpa using hp
        rfl
    · split at hp
      · simp at hp
      · split at hp
        · simp at hp
        · rename_i q rest hq
          have hall : ∀ e ∈ q :: rest, e.1.z = 0 := by
            rw [← hq]
            intro e he
            rw [List.mem_append] at he
            rcases he with he | he <;> split at he <;> simp only [List.mem_singleton, List.not_mem_nil] at he <;>
              rw [he] <;> rfl
          rcases pickCircle_mem hp with rfl | ⟨q', hq', rfl⟩
          · exact hall q (by simp)
          · exact hall q' (by simp [hq'])
  | arc =>
    have e : intersections s c = checkArcs s c := by simp [intersections, ks, hk]
    rw [e] at hp hf
    have hi := intercepts_flat s.center s.radius c.center c.radius (hyp (s.center.x - c.center.x) (s.center.y - c.center.y))
    by_cases hid : PointMatches s.center c.center 1e-3 ∧ |s.radius - c.radius| < 1e-3
    · exfalso
      unfold checkArcs at hp hf
      dsimp only at hp hf
      split at hp
      · simp at hp
      rename_i h1
      split at hp
      · simp at hp
      rename_i h2
      rw [if_neg h1, if_neg h2, if_pos hid, if_neg (by rw [ks]; simp), if_pos hk] at hf
      simp [Flag.fine] at hf
    · unfold checkArcs at hp
      dsimp only at hp
      replace hp := skip_empty (skip_empty hp)
      rw [if_neg hid, if_neg (by rw [hk]; simp)] at hp
      generalize intercepts s.center s.radius c.center c.radius
        (hyp (s.center.x - c.center.x) (s.center.y - c.center.y)) = u at hp hi
      replace hp := arc_pts hp
      rcases hp with hp | hp <;> rw [hp]
      · exact hi.1
      · exact hi.2
  | circle =>
    have e : intersections s c = checkCircles s c := by simp [intersections, ks, hk]
    rw [e] at hp
    unfold checkCircles at hp
    simp only at hp
    split at hp
    · simp at hp
    split at hp
    · simp at hp
    split at hp
    · simp at hp
    split at hp
    · simp at hp
    split at hp
    · simp at hp
    · have hi := intercepts_flat s.center s.radius c.center c.radius (hyp (s.center.x - c.center.x) (s.center.y - c.center.y))
      simp only [List.mem_cons, List.not_mem_nil, or_false] at hp
      rcases hp with hp | hp <;> rw [hp]
      · exact hi.1
      · exact hi.2

/-- the segments that remain after erasing -/
theorem eraseTo_mem {segs l : List Seg} {i : ℕ} {q : Point ℝ} {sp : Seg} (h : eraseTo segs i q sp = some l) :
    ∀ t ∈ l, t ∈ segs ∨ t = sp := by
  unfold eraseTo at h
  simp only at h
  split at h
  · obtain rfl := Option.some.inj h
    intro t ht
    rw [List.mem_append, List.mem_cons] at ht
    rcases ht with ht | rfl | ht
    · exact Or.inl (List.mem_of_mem_take ht)
    · exact Or.inr rfl
    · exact Or.inl (List.mem_of_mem_drop ((List.dropWhile_sublist _).subset ht))
  · split at h
    · cases h
    · obtain rfl := Option.some.inj h
      intro t ht
      rw [List.mem_cons] at ht
      rcases ht with rfl | ht
      · exact Or.inr rfl
      · exact Or.inl (List.mem_of_mem_take ((List.dropWhile_sublist _).subset ht))

/-- the end of the operation, when it succeeds -/
theorem joinArc_true {o : Outline} {segs : List Seg} {i : ℕ} {p q : Point ℝ} {sp : Seg}
    (h : (joinArc o segs i p q sp).ret = true) :
    ∃ k s l, segs[k]? = some s ∧ PointMatches s.stop p 1e-8 = true ∧ eraseTo segs k q sp = some l ∧
      joinArc o segs i p q sp = ⟨{ o with segs := l }, true, false⟩ := by
  generalize hR : joinArc o segs i p q sp = R at h ⊢
  unfold joinArc at hR
  simp only at hR
  generalize (if ((segs[i]?.map fun s => PointMatches s.stop p 1e-8).getD false) = true then i else before segs.length i) = k at hR
  split at hR
  · subst hR; cases h
  rename_i hk
  cases hs : segs[k]? with
  | none => rw [hs] at hk; simp at hk
  | some s =>
    rw [hs] at hk
    cases he : eraseTo segs k q sp with
    | none => rw [he] at hR; subst hR; cases h
    | some l =>
      rw [he] at hR
      exact ⟨k, s, l, hs, by simpa using hk, he, hR.symm⟩

/-- a segment of the outline after it was changed between `p` and `q`: one of the old segments, the new arc, or a piece of
an old segment that was split at the point or at the points on it -/
def PieceOf (segs : List Seg) (p q : Point ℝ × ℕ) (sp t : Seg) : Prop :=
  t ∈ segs ∨ t = sp ∨ ∃ s pts s' l, s ∈ segs ∧ s.split pts = some (s', l) ∧ t ∈ s' :: l ∧
    ((pts = [p.1] ∧ segs[p.2]? = some s) ∨ (pts = [q.1] ∧ segs[q.2]? = some s) ∨
     (pts = [p.1, q.1] ∧ segs[p.2]? = some s ∧ (segs[q.2]? = some s ∨ s.kind = .circle)))

theorem splitOne_other {segs l : List Seg} {i j : ℕ} {p : Point ℝ} (h : splitOne segs i p = (l, true)) (hij : i ≠ j) :
    l[if i < j then j + 1 else j]? = segs[j]? := by
  obtain ⟨s, s', t, h1, -, rfl⟩ := splitOne_cases h
  obtain ⟨-, hlen⟩ := getElem?_decomp h1
  split
  · rename_i hlt
    rw [List.getElem?_append_right (by rw [List.length_take]; omega)]
    have e : j + 1 - (segs.take i).length = (j - i - 1) + 1 + 1 := by rw [List.length_take]; omega
    rw [e, List.getElem?_cons_succ, List.getElem?_cons_succ, List.getElem?_drop]
    congr 1; omega
  · rw [List.getElem?_append_left (by rw [List.length_take]; omega), List.getElem?_take]
    rw [if_pos (by omega)]

theorem splitOne_mem {segs l : List Seg} {i : ℕ} {p : Point ℝ} (h : splitOne segs i p = (l, true)) :
    ∀ t ∈ l, t ∈ segs ∨ ∃ s s' m, segs[i]? = some s ∧ s.split [p] = some (s', m) ∧ t ∈ s' :: m := by
  obtain ⟨s, s', u, h1, h2, rfl⟩ := splitOne_cases h
  intro t ht
  simp only [List.mem_append, List.mem_cons] at ht
  rcases ht with ht | rfl | rfl | ht
  · exact Or.inl (List.mem_of_mem_take ht)
  · exact Or.inr ⟨s, t, [u], h1, h2, by simp⟩
  · exact Or.inr ⟨s, s', [t], h1, h2, by simp⟩
  · exact Or.inl (List.mem_of_mem_drop ht)

/-- the two splits and the end of the operation, when it succeeds -/
theorem splitAndJoin_true {o : Outline} {i j : ℕ} {p q : Point ℝ} {pEnd qEnd : Bool} {sp : Seg}
    (h : (splitAndJoin o i j p q pEnd qEnd sp).ret = true) :
    ∃ l1 l2 k, (l1 = o.segs ∧ pEnd = true ∨ splitOne o.segs i p = (l1, true) ∧ pEnd = false) ∧
      (l2 = l1 ∧ qEnd = true ∨ splitOne l1 (if pEnd = false ∧ i < j then j + 1 else j) q = (l2, true) ∧ qEnd = false) ∧
      splitAndJoin o i j p q pEnd qEnd sp = joinArc o l2 k p q sp := by
  generalize hR : splitAndJoin o i j p q pEnd qEnd sp = R at h ⊢
  unfold splitAndJoin at hR
  simp only at hR
  cases pEnd with
  | true =>
    simp only [if_true, Bool.true_eq_false, if_false, false_and] at hR
    cases qEnd with
    | true =>
      simp only [if_true, Bool.true_eq_false, if_false, false_and] at hR
      exact ⟨_, _, _, Or.inl ⟨rfl, rfl⟩, Or.inl ⟨rfl, rfl⟩, hR.symm⟩
    | false =>
      simp only [Bool.false_eq_true, if_false, true_and] at hR
      cases h1 : splitOne o.segs j q with
      | mk l2 b =>
        rw [h1] at hR
        cases b
        · simp only [if_true] at hR; subst hR; cases h
        · simp only [Bool.true_eq_false, if_false] at hR
          exact ⟨_, l2, _, Or.inl ⟨rfl, rfl⟩, Or.inr ⟨by simpa using h1, rfl⟩, hR.symm⟩
  | false =>
    simp only [Bool.false_eq_true, if_false, true_and] at hR
    cases h1 : splitOne o.segs i p with
    | mk l1 b =>
      rw [h1] at hR
      cases b
      · simp only [if_true] at hR; subst hR; cases h
      simp only [Bool.true_eq_false, if_false] at hR
      cases qEnd with
      | true =>
        simp only [if_true, Bool.true_eq_false, if_false, false_and] at hR
        exact ⟨l1, _, _, Or.inr ⟨rfl, rfl⟩, Or.inl ⟨rfl, rfl⟩, hR.symm⟩
      | false =>
        simp only [Bool.false_eq_true, if_false, true_and] at hR
        cases h2 : splitOne l1 (if i < j then j + 1 else j) q with
        | mk l2 b =>
          rw [h2] at hR
          cases b
          · simp only [if_true] at hR; subst hR; cases h
          · simp only [Bool.true_eq_false, if_false] at hR
            exact ⟨l1, l2, _, Or.inr ⟨rfl, rfl⟩, Or.inr ⟨by simpa using h2, rfl⟩, hR.symm⟩

/-- `changeOutline` when it succeeds: what the segments are, and that they run round -/
theorem changeOutline_true {o : Outline} {c : Seg} {opsub : Bool} {p q : Point ℝ × ℕ} {pEnd qEnd : Bool}
    (h : (changeOutline o c opsub p q pEnd qEnd).ret = true) (hpq : PointMatches p.1 q.1 1e-8 = false)
    (hshape : (∃ s, o.segs = [s] ∧ s.kind = .circle) ∨ Pieces o.segs) :
    ∃ sp, setArc c.center p.1 q.1 opsub = (sp, true) ∧ sp.kind = .arc ∧ sp.start = p.1 ∧ sp.stop = q.1 ∧
      sp.center = c.center ∧ sp.radius = hyp (p.1.x - c.center.x) (p.1.y - c.center.y) ∧
      (changeOutline o c opsub p q pEnd qEnd).error = false ∧
      (changeOutline o c opsub p q pEnd qEnd).out.closed = o.closed ∧
      (∀ t ∈ (changeOutline o c opsub p q pEnd qEnd).out.segs, PieceOf o.segs p q sp t) ∧
      ((Ring o.segs ∨ ∃ s, o.segs = [s] ∧ s.kind = .circle) → (∀ s ∈ o.segs, s.kind = .line → s.stop.z = 0) →
        (∀ s s' m t, p.2 = q.2 → s.kind ≠ .circle → o.segs[p.2]? = some s → s.split [p.1, q.1] = some (s', [m, t]) →
          s'.stop = p.1 ∧ t.start = q.1) →
        Ring (changeOutline o c opsub p q pEnd qEnd).out.segs) := by
  generalize hR : changeOutline o c opsub p q pEnd qEnd = R at h ⊢
  unfold changeOutline at hR
  simp only at hR
  cases hsp : setArc c.center p.1 q.1 opsub with
  | mk sp b =>
  rw [hsp] at hR
  simp only at hR
  split at hR
  · subst hR; cases h
  rename_i hb
  obtain rfl : b = true := by simpa using hb
  obtain ⟨zc, zp, zq, -, -, ec, er, hk⟩ := setArc_cases hsp
  rcases hk with ⟨-, hk⟩ | ⟨hk, -, e1, e2, -⟩
  · rw [hpq] at hk; cases hk
  refine ⟨sp, rfl, hk, e1, e2, ec, er, ?_⟩
  split at hR
  · rename_i hhead
    obtain ⟨s, hs, ks⟩ : ∃ s, o.segs = [s] ∧ s.kind = .circle := by
      rcases hshape with hs | hs
      · exact hs
      · exfalso
        cases ho : o.segs with
        | nil => rw [ho] at hhead; simp at hhead
        | cons u r =>
          rw [ho] at hhead
          have := hs u (by rw [ho]; simp)
          simp only [List.head?_cons, Option.map_some, Option.some.injEq] at hhead
          rcases this with h1 | h1 <;> rw [h1] at hhead <;> cases hhead
    have hp0 : ∀ s', o.segs[p.2]? = some s' → p.2 = 0 ∧ s' = s := by
      intro s' h'
      rw [hs] at h'
      match hp2 : p.2, h' with
      | 0, h' => exact ⟨rfl, by simpa using h'.symm⟩
      | k + 1, h' => simp at h'
    cases hg : o.segs[p.2]? with
    | none => rw [hg] at hR; simp only [Option.bind_none] at hR; subst hR; cases h
    | some s0 =>
      obtain ⟨hp2, rfl⟩ := hp0 s0 hg
      rw [hg] at hR
      simp only [Option.bind_some] at hR
      cases hsplit : s0.split [p.1, q.1] with
      | none => rw [hsplit] at hR; simp only at hR; subst hR; cases h
      | some r =>
        obtain ⟨s', l⟩ := r
        rw [hsplit] at hR
        simp only [hs, hp2, List.set_cons_zero] at hR
        subst hR
        refine ⟨rfl, rfl, ?_, ?_⟩
        · intro t ht
          simp only [List.cons_append, List.nil_append, List.mem_cons, List.not_mem_nil, or_false] at ht
          rcases ht with rfl | rfl
          · exact Or.inr (Or.inr ⟨s0, _, t, l, by rw [hs]; simp, hsplit, by simp,
              Or.inr (Or.inr ⟨rfl, by rw [hs, hp2]; rfl, Or.inr ks⟩)⟩)
          · exact Or.inr (Or.inl rfl)
        · intro _ _ _
          obtain ⟨-, ⟨k, -⟩ | ⟨k, -⟩ | ⟨-, hc⟩⟩ := split_cases hsplit
          · rw [ks] at k; cases k
          · rw [ks] at k; cases k
          obtain ⟨u, v, huv, -, -, -, rfl, rfl⟩ := splitCircle_cases hc
          obtain ⟨rfl, rfl⟩ : p.1 = u ∧ q.1 = v := by simpa using huv
          refine ⟨sp, by simp, ?_⟩
          simp only [List.cons_append, List.nil_append, contiguousFrom, Bool.and_true, Bool.and_eq_true]
          exact ⟨matches_self_of_eq (by rw [e2]; rfl), matches_self_of_eq (by rw [e1]; rfl)⟩
  · rename_i hhead
    have hringof : (Ring o.segs ∨ ∃ s, o.segs = [s] ∧ s.kind = .circle) → Ring o.segs := by
      rintro (h | ⟨s, h1, h2⟩)
      · exact h
      · rw [h1] at hhead; simp [h2] at hhead
    split at hR
    · rename_i hcond
      obtain ⟨hpE, hqE, hidx⟩ := hcond
      cases hg : o.segs[p.2]? with
      | none => rw [hg] at hR; simp only [Option.bind_none] at hR; subst hR; cases h
      | some s0 =>
        rw [hg] at hR
        simp only [Option.bind_some] at hR
        have hmem : s0 ∈ o.segs := List.mem_of_getElem? hg
        cases hsplit : s0.split [p.1, q.1] with
        | none => rw [hsplit] at hR; simp only at hR; subst hR; cases h
        | some r =>
          obtain ⟨s', l⟩ := r
          rw [hsplit] at hR
          match l, hsplit, hR with
          | [], _, hR => simp only at hR; subst hR; cases h
          | [_], _, hR => simp only at hR; subst hR; cases h
          | _ :: _ :: _ :: _, _, hR => simp only at hR; subst hR; cases h
          | [m, t], hsplit, hR =>
            simp only at hR
            subst hR
            refine ⟨rfl, rfl, ?_, ?_⟩
            · intro u hu
              simp only [List.mem_append, List.mem_cons] at hu
              rcases hu with hu | rfl | rfl | rfl | hu
              · exact Or.inl (List.mem_of_mem_take hu)
              · exact Or.inr (Or.inr ⟨s0, _, u, [m, t], hmem, hsplit, by simp,
                  Or.inr (Or.inr ⟨rfl, hg, Or.inl (by rw [← hidx]; exact hg)⟩)⟩)
              · exact Or.inr (Or.inl rfl)
              · exact Or.inr (Or.inr ⟨s0, _, s', [m, u], hmem, hsplit, by simp,
                  Or.inr (Or.inr ⟨rfl, hg, Or.inl (by rw [← hidx]; exact hg)⟩)⟩)
              · exact Or.inl (List.mem_of_mem_drop hu)
            · intro hr hz hone
              have hr := hringof hr
              have ks : s0.kind ≠ .circle := by
                intro ks
                obtain ⟨-, ⟨k, -⟩ | ⟨k, -⟩ | ⟨-, hc⟩⟩ := split_cases hsplit
                · rw [ks] at k; cases k
                · rw [ks] at k; cases k
                obtain ⟨u, v, huv, -, -, -, -, hl⟩ := splitCircle_cases hc
                simp at hl
              obtain ⟨a1, a2⟩ := hone s0 s' m t hidx ks rfl hsplit
              obtain ⟨a3, a4⟩ := split_two_ends ks (fun k => ⟨zp, zq, hz s0 hmem k⟩) hpq hsplit
              obtain ⟨hdec, -⟩ := getElem?_decomp hg
              rw [hdec] at hr
              have hr2 : Ring (o.segs.take p.2 ++ s' :: { t with start := s'.stop } :: o.segs.drop (p.2 + 1)) :=
                ring_replace hr a3 (matches_self_of_eq rfl) a4
              exact ring_insert hr2 (by rw [e1]; exact matches_self_of_eq a1.symm) (matches_self_of_eq (by rw [e2, a2])) rfl
    · rename_i hcond
      obtain ⟨l1, l2, k, s1, s2, hjoin⟩ := splitAndJoin_true (by rw [hR]; exact h)
      rw [hR] at hjoin
      subst hjoin
      obtain ⟨k', s, l, hk1, hk2, hk3, hk4⟩ := joinArc_true h
      rw [hk4]
      refine ⟨rfl, rfl, ?_, ?_⟩
      · intro t ht
        simp only at ht
        rcases eraseTo_mem hk3 t ht with ht | rfl
        swap
        · exact Or.inr (Or.inl rfl)
        have first : ∀ u ∈ l1, PieceOf o.segs p q sp u := by
          intro u hu
          rcases s1 with ⟨rfl, -⟩ | ⟨s1, -⟩
          · exact Or.inl hu
          · rcases splitOne_mem s1 u hu with hu | ⟨v, s', m, g1, g2, g3⟩
            · exact Or.inl hu
            · exact Or.inr (Or.inr ⟨v, _, s', m, List.mem_of_getElem? g1, g2, g3, Or.inl ⟨rfl, g1⟩⟩)
        rcases s2 with ⟨rfl, -⟩ | ⟨s2, hqE⟩
        · exact first t ht
        · rcases splitOne_mem s2 t ht with ht | ⟨v, s', m, g1, g2, g3⟩
          · exact first t ht
          · have g1' : o.segs[q.2]? = some v := by
              rcases s1 with ⟨rfl, hpE⟩ | ⟨s1, hpE⟩
              · rw [← g1]; simp [hpE]
              · have hne : p.2 ≠ q.2 := fun e => hcond ⟨hpE, hqE, e⟩
                rw [← splitOne_other s1 hne, ← g1]
                simp [hpE]
            exact Or.inr (Or.inr ⟨v, _, s', m, List.mem_of_getElem? g1', g2, g3, Or.inr (Or.inl ⟨rfl, g1'⟩)⟩)
      · intro hr hz _
        have hr := hringof hr
        have r1 : Ring l1 ∧ ∀ s ∈ l1, s.kind = .line → s.stop.z = 0 := by
          rcases s1 with ⟨rfl, -⟩ | ⟨s1, -⟩
          · exact ⟨hr, hz⟩
          · exact splitOne_ring s1 hr zp hz
        have r2 : Ring l2 := by
          rcases s2 with ⟨rfl, -⟩ | ⟨s2, -⟩
          · exact r1.1
          · exact (splitOne_ring s2 r1.1 zq r1.2).1
        refine eraseTo_ring r2 hk1 ?_ e2 hk3
        rw [e1, C51_symmetric]; exact hk2

end Iges.Geo
