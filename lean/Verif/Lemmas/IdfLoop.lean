import Verif.Spec.IdfSeg
/-
Lemmas for C71: the choices made by `GetOutline` and what its loop keeps.
-/
namespace Iges.Idf
open Spec
open scoped List

theorem matches_iff {p q : P2} : p.matches q 1e-3 = true ↔ Close p q := by
  unfold P2.matches Close gap2
  simp only [decide_eq_true_eq]
  constructor <;> intro h <;> nlinarith [h]

theorem close_comm {p q : P2} : Close p q ↔ Close q p := by
  unfold Close gap2
  rw [show (p.x - q.x) ^ 2 + (p.y - q.y) ^ 2 = (q.x - p.x) ^ 2 + (q.y - p.y) ^ 2 by ring]

theorem close_refl (p : P2) : Close p p := by unfold Close gap2; norm_num

theorem swap_same (s : Seg) (h : s.isCircle = false) : SameSeg s s.swap := by
  unfold Seg.swap SameSeg
  rw [h]
  simp only [Bool.false_eq_true, if_false]
  split <;> simp

theorem swap_ends (s : Seg) (h : s.isCircle = false) : s.swap.start = s.stop ∧ s.swap.stop = s.start := by
  unfold Seg.swap
  rw [h]
  simp only [Bool.false_eq_true, if_false]
  split <;> simp

theorem swap_circle (s : Seg) (h : s.isCircle = false) : s.swap.isCircle = false := by
  unfold Seg.swap
  rw [h]
  simp only [Bool.false_eq_true, if_false]
  unfold Seg.isCircle fullTurn at *
  split
  · simpa using h
  · simpa [abs_neg] using h

theorem line_circle (a b : P2) : (lineSeg a b).isCircle = false := by
  unfold Seg.isCircle fullTurn lineSeg minAng
  rw [decide_eq_false_iff_not]
  rintro ⟨-, h⟩
  norm_num at h

theorem takeFirst_some {f : Seg → Bool} {l r : List Seg} {s : Seg} (h : takeFirst f l = some (s, r)) :
    (∃ pre post, l = pre ++ s :: post ∧ r = pre ++ post) ∧ f s = true ∧ s.isCircle = false := by
  induction l generalizing r with
  | nil => simp [takeFirst] at h
  | cons a l ih =>
    unfold takeFirst at h
    split at h
    · rename_i hc
      obtain ⟨rfl, rfl⟩ := Prod.mk.inj (Option.some.inj h)
      rw [Bool.and_eq_true, Bool.not_eq_true'] at hc
      exact ⟨⟨[], l, rfl, rfl⟩, hc⟩
    · cases h' : takeFirst f l with
      | none => rw [h'] at h; simp at h
      | some w =>
        rw [h'] at h
        obtain ⟨h1, h2⟩ := Prod.mk.inj (Option.some.inj h)
        have h3 : takeFirst f l = some (s, w.2) := by rw [h', ← h1]
        obtain ⟨⟨pre, post, e1, e2⟩, e3⟩ := ih h3
        exact ⟨⟨a :: pre, post, by rw [e1]; rfl, by rw [← h2, e2]; rfl⟩, e3⟩

theorem takeFirst_none {f : Seg → Bool} {l : List Seg} (h : takeFirst f l = none) :
    ∀ s ∈ l, s.isCircle = false → f s = false := by
  induction l with
  | nil => simp
  | cons a l ih =>
    unfold takeFirst at h
    split at h
    · cases h
    · rename_i hc
      rw [Option.map_eq_none_iff] at h
      intro s hs h2
      rcases List.mem_cons.1 hs with rfl | hs
      · by_contra hf
        rw [Bool.not_eq_false] at hf
        exact hc (by rw [hf, h2]; rfl)
      · exact ih h s hs h2

theorem leftmost_some {l pre post : List Seg} {s : Seg} (h : leftmost l = some (pre, s, post)) :
    l = pre ++ s :: post ∧ (∀ t ∈ pre, s.minX < t.minX) ∧ ∀ t ∈ post, s.minX ≤ t.minX := by
  induction l generalizing pre s post with
  | nil => simp [leftmost] at h
  | cons a l ih =>
    unfold leftmost at h
    cases h' : leftmost l with
    | none =>
      rw [h'] at h
      cases h
      cases l with
      | nil => simp
      | cons b l =>
        exfalso
        unfold leftmost at h'
        split at h'
        · cases h'
        · split at h' <;> cases h'
    | some w =>
      obtain ⟨p, t, q⟩ := w
      rw [h'] at h
      obtain ⟨e, h1, h2⟩ := ih h'
      simp only at h
      split at h
      · rename_i hlt
        cases h
        refine ⟨by rw [e]; rfl, ?_, h2⟩
        intro u hu
        rcases List.mem_cons.1 hu with rfl | hu
        · exact hlt
        · exact h1 u hu
      · rename_i hlt
        cases h
        refine ⟨rfl, by simp, ?_⟩
        intro u hu
        rw [e] at hu
        have hlt := not_lt.1 hlt
        rcases List.mem_append.1 hu with hu | hu
        · exact le_trans hlt (le_of_lt (h1 u hu))
        · rcases List.mem_cons.1 hu with rfl | hu
          · exact hlt
          · exact le_trans hlt (h2 u hu)

theorem leftmost_none {l : List Seg} : leftmost l = none ↔ l = [] := by
  constructor
  · intro h
    cases l with
    | nil => rfl
    | cons a l =>
      unfold leftmost at h
      split at h
      · cases h
      · split at h <;> cases h
  · rintro rfl; rfl

/-- what holds of the outline in the loop of `GetOutline` -/
structure Good (o : Loop) (front back : Seg) : Prop where
  head : o.segs.head? = some front
  last : o.segs.getLast? = some back
  plain : ∀ s ∈ o.segs, s.isCircle = false
  chain : Chain o.segs
  dir : o.dir = (o.segs.map windOf).sum

theorem chain_snoc {l : List Seg} {b s : Seg} (h : Chain l) (hb : l.getLast? = some b) (hs : Close b.stop s.start) :
    Chain (l ++ [s]) := by
  induction l with
  | nil => simp at hb
  | cons a l ih =>
    cases l with
    | nil =>
      obtain rfl : a = b := by simpa using hb
      exact ⟨hs, trivial⟩
    | cons c l =>
      exact ⟨h.1, ih h.2 (by simpa using hb)⟩

theorem Good.push {o : Loop} {front back s : Seg} (g : Good o front back) (hs : s.isCircle = false)
    (hc : Close s.start back.stop) :
    o.push s = (⟨o.dir + windOf s, o.segs ++ [s]⟩, true) ∧ Good (o.push s).1 front s := by
  have hb : back.isCircle = false := g.plain _ (List.mem_of_getLast? g.last)
  have e : o.push s = (⟨o.dir + windOf s, o.segs ++ [s]⟩, true) := by
    unfold Loop.push
    rw [g.last]
    simp only [hs, hb, Bool.false_eq_true, if_false]
    have : s.matchesStart back.stop = true := matches_iff.2 hc
    simp [this]
  refine ⟨e, ?_⟩
  rw [e]
  refine ⟨?_, by simp, ?_, chain_snoc g.chain g.last (close_comm.1 hc), ?_⟩
  · rw [List.head?_append, g.head]; rfl
  · intro t ht
    rcases List.mem_append.1 ht with h | h
    · exact g.plain t h
    · rw [List.mem_singleton.1 h]; exact hs
  · simp [g.dir]

/-- the two ways in which the loop of `GetOutline` ends -/
def Assembled (o : Loop) (front back : Seg) (lines : List Seg) (r : Loop × List Seg) : Prop :=
  (∃ used kept closing last, lines ~ used ++ r.2 ∧ List.Forall₂ SameSeg used kept ∧ r.1.segs = o.segs ++ kept ++ closing ∧
    Good r.1 front last ∧ Close last.stop front.start ∧
    (closing = [] ∨ ∃ b, (o.segs ++ kept).getLast? = some b ∧ closing = [lineSeg b.stop front.start] ∧
      ∀ s ∈ r.2, s.isCircle = false → ¬ Close s.start b.stop ∧ ¬ Close s.stop b.stop)) ∨
  (r.1 = Loop.empty ∧ r.2 = lines ∧ o.segs.length ≤ 1 ∧ -minAng ≤ front.angle ∧ front.angle ≤ minAng ∧
    ∀ s ∈ lines, s.isCircle = false → ¬ Close s.start back.stop ∧ ¬ Close s.stop back.stop)

theorem step_assembled {o : Loop} {front back s u : Seg} {lines rest : List Seg} (g : Good o front back)
    (hu : u.isCircle = false) (hc : Close u.start back.stop) (hp : lines ~ s :: rest) (hss : SameSeg s u)
    (ih : ∀ o' b', Good o' front b' → Assembled o' front b' rest (assemble o' rest)) :
    Assembled o front back lines
      (if front.matchesStart ((o.push u).1.segs.getLast?.getD front).stop then ((o.push u).1, rest)
       else assemble (o.push u).1 rest) := by
  obtain ⟨e, g'⟩ := g.push hu hc
  rw [g'.last]
  simp only [Option.getD_some]
  by_cases hm : front.matchesStart u.stop = true
  · rw [if_pos hm]
    left
    refine ⟨[s], [u], [], u, hp, List.Forall₂.cons hss List.Forall₂.nil, ?_, g', ?_, Or.inl rfl⟩
    · rw [e]; simp
    · exact close_comm.1 (matches_iff.1 hm)
  · rw [if_neg hm]
    have hlen : ¬ (o.push u).1.segs.length ≤ 1 := by
      rw [e]
      have : o.segs ≠ [] := by intro h; have := g.head; rw [h] at this; simp at this
      have := List.length_pos_iff.2 this
      simp; omega
    rcases ih _ _ g' with ⟨used, kept, closing, last, h1, h2, h3, h4, h5, h6⟩ | ⟨-, -, h, -⟩
    · left
      refine ⟨s :: used, u :: kept, closing, last, ?_, List.Forall₂.cons hss h2, ?_, h4, h5, ?_⟩
      · exact hp.trans (List.Perm.cons s h1)
      · rw [h3, e]; simp
      · rcases h6 with h6 | ⟨b, hb1, hb2, hb3⟩
        · exact Or.inl h6
        · refine Or.inr ⟨b, ?_, hb2, hb3⟩
          rw [← hb1, e]; simp
    · exact absurd h hlen

theorem assemble_spec : ∀ (n : ℕ) (lines : List Seg), lines.length = n → ∀ (o : Loop) (front back : Seg),
    Good o front back → Assembled o front back lines (assemble o lines) := by
  intro n
  induction n using Nat.strong_induction_on with
  | _ n IH =>
  intro lines hn o front back g
  have IH' : ∀ rest : List Seg, rest.length < lines.length → ∀ o' b', Good o' front b' →
      Assembled o' front b' rest (assemble o' rest) :=
    fun rest hr o' b' g' => IH rest.length (by omega) rest rfl o' front b' g'
  rw [assemble]
  simp only [g.head, g.last, Option.getD_some]
  split
  · rename_i s rest h
    simp only [g.head, g.last, Option.getD_some] at h
    obtain ⟨⟨pre, post, e1, e2⟩, hf, hs⟩ := takeFirst_some h
    refine step_assembled g hs (matches_iff.1 hf) ?_ (Or.inl rfl) (IH' rest (takeFirst_length h))
    rw [e1, e2]; exact List.perm_middle
  · rename_i h
    simp only [g.head, g.last, Option.getD_some] at h
    split
    · rename_i s rest h'
      simp only [g.head, g.last, Option.getD_some] at h'
      obtain ⟨⟨pre, post, e1, e2⟩, hf, hs⟩ := takeFirst_some h'
      refine step_assembled g (swap_circle s hs) ?_ ?_ (swap_same s hs) (IH' rest (takeFirst_length h'))
      · rw [(swap_ends s hs).1]; exact matches_iff.1 hf
      · rw [e1, e2]; exact List.perm_middle
    · rename_i h'
      simp only [g.head, g.last, Option.getD_some] at h'
      have hno : ∀ s ∈ lines, s.isCircle = false → ¬ Close s.start back.stop ∧ ¬ Close s.stop back.stop := by
        intro s hs hc
        constructor
        · intro hcl
          have := takeFirst_none h s hs hc
          rw [show s.matchesStart back.stop = true from matches_iff.2 hcl] at this
          cases this
        · intro hcl
          have := takeFirst_none h' s hs hc
          rw [show s.matchesEnd back.stop = true from matches_iff.2 hcl] at this
          cases this
      split
      · left
        obtain ⟨e, g'⟩ := g.push (line_circle back.stop front.start) (close_refl _)
        refine ⟨[], [], [lineSeg back.stop front.start], _, by simp, List.Forall₂.nil, by rw [e]; simp, g', ?_, ?_⟩
        · exact close_refl _
        · exact Or.inr ⟨back, by simpa using g.last, rfl, hno⟩
      · rename_i hn
        right
        have h1 := (not_or.1 hn)
        have h2 := not_or.1 h1.2
        exact ⟨rfl, rfl, by omega, not_lt.1 h2.1, not_lt.1 h2.2, hno⟩

theorem good_single {s : Seg} (h : s.isCircle = false) : Good (Loop.empty.push s).1 s s := by
  unfold Loop.push Loop.empty
  refine ⟨rfl, rfl, ?_, trivial, ?_⟩
  · intro t ht
    obtain rfl : t = s := by simpa using ht
    exact h
  · simp

theorem joins_plain {s : Seg} {p q : P2} (h : Joins s p q) : s.isCircle = false := by
  unfold Seg.isCircle fullTurn minAng
  rw [decide_eq_false_iff_not]
  rintro ⟨-, h2⟩
  have := h.1
  norm_num at h2 this ⊢
  linarith

/-- the loop of `GetOutline` walks round a polygon `w 0`, …, `w (n - 1)`: it has reached `w j` and the edges that are left
are those from there on, in some order -/
theorem assemble_walk {n : ℕ} {w : ℕ → P2} {e : ℕ → Seg} (hn : w n = w 0)
    (hw : ∀ i j, i < n → j < n → i ≠ j → ¬ Close (w i) (w j)) (he : ∀ i < n, Joins (e i) (w i) (w (i + 1))) :
    ∀ (m j : ℕ), j + m = n → 0 < j → 0 < m → ∀ (lines : List Seg) (o : Loop) (front back : Seg), Good o front back →
    lines ~ (List.range' j m).map e → front.start = w 0 → back.stop = w j →
    ∃ kept : List Seg, assemble o lines = (⟨((o.segs ++ kept).map windOf).sum, o.segs ++ kept⟩, []) ∧ kept.length = m ∧
      (∀ i : ℕ, (h : i < kept.length) → kept[i].start = w (j + i) ∧ kept[i].stop = w (j + i + 1)) := by
  intro m
  induction m with
  | zero => intro j _ _ h; omega
  | succ m ih =>
    intro j hj hj0 _ lines o front back g hp hf hb
    have near : ∀ i < n, w i = w j ∨ Close (w i) (w j) → i = j := by
      intro i hi h
      by_contra hne
      rcases h with h | h
      · exact hw i j hi (by omega) hne (by rw [h]; exact close_refl _)
      · exact hw i j hi (by omega) hne h
    have nextNear : ∀ i, j ≤ i → i < n → ¬ Close (w (i + 1)) (w j) := by
      intro i h1 h2 hc
      by_cases h3 : i + 1 = n
      · rw [h3, hn] at hc
        exact hw 0 j (by omega) (by omega) (by omega) hc
      · exact hw (i + 1) j (by omega) (by omega) (by omega) hc
    -- every remaining segment that touches `w j` is the edge number `j`
    have touch : ∀ s ∈ lines, (Close s.start (w j) → s = e j ∧ s.start = w j ∧ s.stop = w (j + 1)) ∧
        (Close s.stop (w j) → s = e j ∧ s.stop = w j ∧ s.start = w (j + 1)) := by
      intro s hs
      obtain ⟨i, hi, rfl⟩ := List.mem_map.1 (hp.mem_iff.1 hs)
      rw [List.mem_range'_1] at hi
      obtain ⟨-, hj1⟩ := he i (by omega)
      constructor
      · intro hc
        rcases hj1 with ⟨h1, h2⟩ | ⟨h1, h2⟩
        · rw [h1] at hc
          obtain rfl := near i (by omega) (Or.inr hc)
          exact ⟨rfl, h1, h2⟩
        · rw [h1] at hc; exact absurd hc (nextNear i hi.1 (by omega))
      · intro hc
        rcases hj1 with ⟨h1, h2⟩ | ⟨h1, h2⟩
        · rw [h2] at hc; exact absurd hc (nextNear i hi.1 (by omega))
        · rw [h2] at hc
          obtain rfl := near i (by omega) (Or.inr hc)
          exact ⟨rfl, h2, h1⟩
    have hej : e j ∈ lines := by
      rw [hp.mem_iff]
      exact List.mem_map.2 ⟨j, by rw [List.mem_range'_1]; omega, rfl⟩
    have hcj := joins_plain (he j (by omega))
    obtain ⟨-, hjj⟩ := he j (by omega)
    -- one step
    have step : ∀ (s u : Seg) (rest : List Seg), lines ~ s :: rest → s = e j → u.isCircle = false → u.start = w j →
        u.stop = w (j + 1) →
        ∃ kept : List Seg, (if front.matchesStart ((o.push u).1.segs.getLast?.getD front).stop then ((o.push u).1, rest)
          else assemble (o.push u).1 rest) = (⟨((o.segs ++ kept).map windOf).sum, o.segs ++ kept⟩, []) ∧
          kept.length = m + 1 ∧
          (∀ i : ℕ, (h : i < kept.length) → kept[i].start = w (j + i) ∧ kept[i].stop = w (j + i + 1)) := by
      intro s u rest hsr hs hu hu1 hu2
      obtain ⟨e1, g'⟩ := g.push hu (by rw [hu1, hb]; exact close_refl _)
      have hrest : rest ~ (List.range' (j + 1) m).map e := by
        have := (hsr.symm.trans hp)
        rw [List.range'_succ, List.map_cons, hs] at this
        exact List.Perm.cons_inv this
      rw [g'.last]
      simp only [Option.getD_some]
      by_cases hm : m = 0
      · subst hm
        have : front.matchesStart u.stop = true := by
          apply matches_iff.2
          rw [hf, hu2, show j + 1 = n by omega, hn]; exact close_refl _
        rw [if_pos this]
        have hr : rest = [] := by simpa using hrest
        refine ⟨[u], ?_, rfl, ?_⟩
        · rw [hr, e1, g.dir]; simp
        · intro i hi
          have : i = 0 := by simpa using hi
          subst this
          exact ⟨hu1, hu2⟩
      · have : ¬ front.matchesStart u.stop = true := by
          intro h
          have h := matches_iff.1 h
          rw [hf, hu2] at h
          exact hw 0 (j + 1) (by omega) (by omega) (by omega) h
        rw [if_neg this]
        obtain ⟨kept, k1, k2, k3⟩ := ih (j + 1) (by omega) (by omega) (by omega) rest _ front u g' hrest hf hu2
        refine ⟨u :: kept, ?_, by simp [k2], ?_⟩
        · rw [k1, e1]; simp
        · intro i hi
          cases i with
          | zero => exact ⟨hu1, hu2⟩
          | succ i =>
            have := k3 i (by simpa using hi)
            simp only [List.getElem_cons_succ]
            rw [show j + (i + 1) = j + 1 + i by omega]
            exact this
    rw [assemble]
    simp only [g.head, g.last, Option.getD_some]
    split
    · rename_i s rest h
      simp only [g.head, g.last, Option.getD_some] at h
      obtain ⟨⟨pre, post, e1, e2⟩, hm, hs⟩ := takeFirst_some h
      have hmem : s ∈ lines := by rw [e1]; simp
      have hm := matches_iff.1 hm
      rw [hb] at hm
      obtain ⟨a1, a2, a3⟩ := (touch s hmem).1 hm
      exact step s s rest (by rw [e1, e2]; exact List.perm_middle) a1 hs a2 a3
    · rename_i h
      simp only [g.head, g.last, Option.getD_some] at h
      split
      · rename_i s rest h'
        simp only [g.head, g.last, Option.getD_some] at h'
        obtain ⟨⟨pre, post, e1, e2⟩, hm, hs⟩ := takeFirst_some h'
        have hmem : s ∈ lines := by rw [e1]; simp
        have hm := matches_iff.1 hm
        rw [hb] at hm
        obtain ⟨a1, a2, a3⟩ := (touch s hmem).2 hm
        exact step s s.swap rest (by rw [e1, e2]; exact List.perm_middle) a1 (swap_circle s hs)
          (by rw [(swap_ends s hs).1, a2]) (by rw [(swap_ends s hs).2, a3])
      · rename_i h'
        simp only [g.head, g.last, Option.getD_some] at h'
        exfalso
        rcases hjj with ⟨h1, -⟩ | ⟨-, h1⟩
        · have := takeFirst_none h (e j) hej hcj
          rw [show (e j).matchesStart back.stop = true from matches_iff.2 (by rw [h1, hb]; exact close_refl _)] at this
          cases this
        · have := takeFirst_none h' (e j) hej hcj
          rw [show (e j).matchesEnd back.stop = true from matches_iff.2 (by rw [h1, hb]; exact close_refl _)] at this
          cases this

end Iges.Idf
