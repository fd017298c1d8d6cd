import Verif.Props.DrillBundle
/-
C88: the regions of the cutouts that are made of holes, and of the board.
-/
namespace Iges.Props
open Iges.Geo Iges.Spec Iges.Turn

namespace Drills

theorem join_closed (o : Outline) (segs : List Seg) (i : ℕ) (p q : Point ℝ) (sp : Seg) :
    (joinArc o segs i p q sp).out.closed = o.closed := by
  unfold joinArc
  extract_lets ends i
  split
  · rfl
  · split <;> rfl

theorem split_closed (o : Outline) (i j : ℕ) (p q : Point ℝ) (e f : Bool) (sp : Seg) :
    (splitAndJoin o i j p q e f sp).out.closed = o.closed := by
  unfold splitAndJoin
  extract_lets r j t i
  split
  · rfl
  · split
    · rfl
    · exact join_closed ..

theorem change_closed (o : Outline) (c : Seg) (opsub : Bool) (p q : Point ℝ × ℕ) (e f : Bool) :
    (changeOutline o c opsub p q e f).out.closed = o.closed := by
  unfold changeOutline
  generalize setArc c.center p.1 q.1 opsub = sp
  generalize (o.segs[p.2]?.bind fun s => s.split [p.1, q.1]) = v
  dsimp only
  by_cases h1 : sp.2 = false
  · rw [if_pos h1]
  rw [if_neg h1]
  by_cases h2 : (o.segs.head?.map Seg.kind) = some .circle
  · rw [if_pos h2]; rcases v with _ | ⟨s, t⟩ <;> rfl
  rw [if_neg h2]
  by_cases h3 : e = false ∧ f = false ∧ p.2 = q.2
  · rw [if_pos h3]; rcases v with _ | ⟨s, _ | ⟨_, _ | ⟨_, _ | ⟨_, _⟩⟩⟩⟩ <;> rfl
  rw [if_neg h3]
  exact split_closed ..

theorem op_closed {o : Outline} {d : Seg} {opsub : Bool} (h : (opCircle o (some d) opsub).ret = true) :
    (opCircle o (some d) opsub).out.closed = o.closed ∧ d.kind = .circle := by
  obtain ⟨c, hits, p, q, e, hk, -, -, -, -, hR⟩ := opCircle_true h
  cases e
  rw [hR, change_closed]
  exact ⟨rfl, hk⟩

/-- one step -/
theorem step {o : Outline} {d : Seg} {opsub : Bool} (hs : SimpleBorder o) (hd : Made d)
    (he : (opCircle o (some d) opsub).error = false) (ha : (opCircle o (some d) opsub).ret = true → Apt o d) :
    SimpleBorder (opCircle o (some d) opsub).out ∧ (opCircle o (some d) opsub).out.closed = o.closed ∧
    ∀ x, OffBorder o.segs x → OffBorder (opCircle o (some d) opsub).out.segs x → planar2 x d.center ≠ d.radius ^ 2 →
      (Inside (opCircle o (some d) opsub).out.segs x ↔
        if (opCircle o (some d) opsub).ret = true then
          if opsub then Inside o.segs x ∧ ¬ InHole d x else Inside o.segs x ∨ InHole d x
        else Inside o.segs x) := by
  cases hr : (opCircle o (some d) opsub).ret with
  | false =>
    obtain ⟨h1, h2⟩ := C82_untouched o (some d) opsub hr he
    refine ⟨?_, h2, fun x _ _ _ => ?_⟩
    · unfold SimpleBorder; rw [h1]; exact hs
    · rw [h1]; simp
  | true =>
    obtain ⟨hcl, hk⟩ := op_closed hr
    have conv : ∀ x : Point ℝ, planar2 x d.center ≠ d.radius ^ 2 → (d.radius ^ 2 < planar2 x d.center ↔ ¬ InHole d x) := fun x hx =>
      ⟨fun h => not_lt.2 h.le, fun h => lt_of_le_of_ne (not_lt.1 h) (Ne.symm hx)⟩
    rcases ha hr with ⟨b, h1, h2, h3⟩ | ⟨h1, h2, h3⟩
    · have hb : Made b := by
        rcases hs with ⟨b', e, hb, -⟩ | ⟨hp, -⟩
        · rw [h1] at e; cases e; exact hb
        · exact (hp b (by rw [h1]; simp)).2.1
      obtain ⟨g1, g2, g3, g4⟩ := C83_circles h1 hb h2 hd h3 hr
      refine ⟨Or.inr ⟨fun s hs => ⟨Or.inr (g3 s hs).1, (g3 s hs).2⟩, g1, g2⟩, hcl, fun x hx0 hx hxd => ?_⟩
      rw [g4 x hx hxd, h1, Disc.inside h2 (fun e => hx0.2 b (by rw [h1]; simp) ((covers_on h2).2 ⟨e, hx0.1⟩)), if_pos rfl, conv x hxd]
      rfl
    · have hs' : (∀ s ∈ o.segs, (s.kind = .line ∨ s.kind = .arc) ∧ Made s ∧ Sharp s) ∧ Round o.segs ∧ Proper o.segs := by
        rcases hs with ⟨b, e, -, hb⟩ | hs
        · rcases h1 b (by rw [e]; simp) with k | k <;> rw [hb] at k <;> cases k
        · exact hs
      obtain ⟨g1, g2, g3, g4⟩ := C83_region_partial h1 (fun s h => (hs'.1 s h).2.1) (fun s h => (hs'.1 s h).2.2) hd hs'.2.1 hs'.2.2 h2 h3 hr
      refine ⟨Or.inr ⟨g3, g1, g2⟩, hcl, fun x hx0 hx hxd => ?_⟩
      rw [g4 x hx hxd, if_pos rfl, conv x hxd]
      rfl

theorem first_stage (opsub : Bool) (o : Outline) (l : List Seg) : o ∈ stages opsub o l := by
  cases l <;> simp [stages]

theorem edge {o : Outline} {l : List Seg} (hs : SimpleBorder o) (hd : ∀ d ∈ l, Made d) (ht : Tame true o l) :
    Idf.cutEdge o l = some (final true o l, untaken true o l) ∧ SimpleBorder (final true o l) ∧ (final true o l).closed = o.closed ∧
      ∃ taken, (untaken true o l ++ taken).Perm l ∧
        ∀ x, (∀ s ∈ stages true o l, OffBorder s.segs x) → (∀ d ∈ l, planar2 x d.center ≠ d.radius ^ 2) →
          (Inside (final true o l).segs x ↔ Inside o.segs x ∧ ∀ d ∈ taken, ¬ InHole d x) := by
  induction l generalizing o with
  | nil => exact ⟨rfl, hs, rfl, [], by simp [untaken], by simp [final]⟩
  | cons d l ih =>
    obtain ⟨t1, t2, t3⟩ := ht
    obtain ⟨s1, s2, s3⟩ := step hs (hd d List.mem_cons_self) t1 t2
    obtain ⟨i1, i2, i3, taken, i5, i6⟩ := ih s1 (fun x hx => hd x (List.mem_cons_of_mem _ hx)) t3
    unfold Idf.cutEdge subCircle untaken stages final
    simp only [if_true] at s3
    generalize opCircle o (some d) true = r at *
    simp only
    cases hr : r.ret with
    | true =>
      rw [hr] at s3
      simp only [if_true] at s3 ⊢
      refine ⟨i1, i2, i3.trans s2, d :: taken, List.perm_middle.trans (i5.cons d), fun x hx hc => ?_⟩
      rw [i6 x (fun s hs => hx s (List.mem_cons_of_mem _ hs)) (fun e he => hc e (List.mem_cons_of_mem _ he)),
        s3 x (hx o List.mem_cons_self) (hx r.out (List.mem_cons_of_mem _ (first_stage _ _ _))) (hc d List.mem_cons_self)]
      simp only [List.mem_cons, forall_eq_or_imp]
      tauto
    | false =>
      rw [hr] at s3
      simp only [Bool.false_eq_true, if_false, t1, i1] at s3 ⊢
      refine ⟨trivial, i2, i3.trans s2, taken, i5.cons d, fun x hx hc => ?_⟩
      rw [i6 x (fun s hs => hx s (List.mem_cons_of_mem _ hs)) (fun e he => hc e (List.mem_cons_of_mem _ he)),
        s3 x (hx o List.mem_cons_self) (hx r.out (List.mem_cons_of_mem _ (first_stage _ _ _))) (hc d List.mem_cons_self)]

theorem widen {o : Outline} {l : List Seg} (hs : SimpleBorder o) (hd : ∀ d ∈ l, Made d) (ht : Tame false o l) :
    Idf.growCutout o l = some (final false o l, untaken false o l) ∧ SimpleBorder (final false o l) ∧ (final false o l).closed = o.closed ∧
      ∃ taken, (untaken false o l ++ taken).Perm l ∧
        ∀ x, (∀ s ∈ stages false o l, OffBorder s.segs x) → (∀ d ∈ l, planar2 x d.center ≠ d.radius ^ 2) →
          (Inside (final false o l).segs x ↔ Inside o.segs x ∨ ∃ d ∈ taken, InHole d x) := by
  induction l generalizing o with
  | nil => exact ⟨rfl, hs, rfl, [], by simp [untaken], by simp [final]⟩
  | cons d l ih =>
    obtain ⟨t1, t2, t3⟩ := ht
    obtain ⟨s1, s2, s3⟩ := step hs (hd d List.mem_cons_self) t1 t2
    obtain ⟨i1, i2, i3, taken, i5, i6⟩ := ih s1 (fun x hx => hd x (List.mem_cons_of_mem _ hx)) t3
    unfold Idf.growCutout addCircle untaken stages final
    simp only [Bool.false_eq_true, if_false] at s3
    generalize opCircle o (some d) false = r at *
    simp only
    cases hr : r.ret with
    | true =>
      rw [hr] at s3
      simp only [if_true] at s3 ⊢
      refine ⟨i1, i2, i3.trans s2, d :: taken, List.perm_middle.trans (i5.cons d), fun x hx hc => ?_⟩
      rw [i6 x (fun s hs => hx s (List.mem_cons_of_mem _ hs)) (fun e he => hc e (List.mem_cons_of_mem _ he)),
        s3 x (hx o List.mem_cons_self) (hx r.out (List.mem_cons_of_mem _ (first_stage _ _ _))) (hc d List.mem_cons_self)]
      simp only [List.mem_cons, exists_eq_or_imp]
      tauto
    | false =>
      rw [hr] at s3
      simp only [Bool.false_eq_true, if_false, t1, i1] at s3 ⊢
      refine ⟨trivial, i2, i3.trans s2, taken, i5.cons d, fun x hx hc => ?_⟩
      rw [i6 x (fun s hs => hx s (List.mem_cons_of_mem _ hs)) (fun e he => hc e (List.mem_cons_of_mem _ he)),
        s3 x (hx o List.mem_cons_self) (hx r.out (List.mem_cons_of_mem _ (first_stage _ _ _))) (hc d List.mem_cons_self)]

theorem joined {o o' : Outline} {l : List Seg} (h : Idf.joinDrills o l = some o') (hs : SimpleBorder o) (hd : ∀ d ∈ l, Made d)
    (ht : Tame false o l) :
    SimpleBorder o' ∧ o'.closed = o.closed ∧ o' ∈ stages false o l ∧
      ∀ x, (∀ s ∈ stages false o l, OffBorder s.segs x) → (∀ d ∈ l, planar2 x d.center ≠ d.radius ^ 2) →
          (Inside o'.segs x ↔ Inside o.segs x ∨ ∃ d ∈ l, InHole d x) := by
  induction l generalizing o with
  | nil => cases h; exact ⟨hs, rfl, by simp [stages], by simp⟩
  | cons d l ih =>
    obtain ⟨t1, t2, t3⟩ := ht
    obtain ⟨s1, s2, s3⟩ := step hs (hd d List.mem_cons_self) t1 t2
    unfold Idf.joinDrills addCircle at h
    simp only at h
    split at h
    · rename_i hr
      obtain ⟨i2, i3, i4, i6⟩ := ih h s1 (fun x hx => hd x (List.mem_cons_of_mem _ hx)) t3
      rw [hr] at s3
      simp only [if_true, Bool.false_eq_true, if_false] at s3
      unfold stages
      refine ⟨i2, i3.trans s2, List.mem_cons_of_mem _ i4, fun x hx hc => ?_⟩
      rw [i6 x (fun s hs => hx s (List.mem_cons_of_mem _ hs)) (fun e he => hc e (List.mem_cons_of_mem _ he)),
        s3 x (hx o List.mem_cons_self) (hx _ (List.mem_cons_of_mem _ (first_stage _ _ _))) (hc d List.mem_cons_self)]
      simp only [List.mem_cons, exists_eq_or_imp]
      tauto
    · cases h

/-- all cutouts -/
theorem widen_all {l : List Seg} {cs : List Outline} (hs : ∀ c ∈ cs, SimpleBorder c) (hcl : ∀ c ∈ cs, c.closed = true)
    (hd : ∀ d ∈ l, Made d) (ht : TameAll l cs) :
    ∃ rest taken, Idf.growCutouts l cs = some (finalAll l cs, rest) ∧ (∀ c ∈ finalAll l cs, c.closed = true) ∧ (rest ++ taken).Perm l ∧
      ∀ x, (∀ s ∈ stagesAll l cs, OffBorder s.segs x) → (∀ d ∈ l, planar2 x d.center ≠ d.radius ^ 2) →
        ((∀ c ∈ finalAll l cs, ¬ Inside c.segs x) ↔ (∀ c ∈ cs, ¬ Inside c.segs x) ∧ ∀ d ∈ taken, ¬ InHole d x) := by
  induction cs generalizing l with
  | nil => exact ⟨l, [], rfl, by simp [finalAll], by simp, by simp [finalAll]⟩
  | cons c cs ih =>
    obtain ⟨i1, i2, i3, taken, i5, i6⟩ := widen (hs c List.mem_cons_self) hd ht.1
    have sub : ∀ d ∈ untaken false c l, d ∈ l := fun d h => i5.subset (List.mem_append_left _ h)
    obtain ⟨rest, taken', j1, j2, j3, j4⟩ := ih (fun x h => hs x (List.mem_cons_of_mem _ h)) (fun x h => hcl x (List.mem_cons_of_mem _ h))
      (fun d h => hd d (sub d h)) ht.2
    refine ⟨rest, taken' ++ taken, ?_, ?_, ?_, ?_⟩
    · unfold Idf.growCutouts finalAll
      rw [i1]
      simp only
      rw [j1]
    · unfold finalAll
      intro x hx
      rcases List.mem_cons.1 hx with rfl | hx
      · rw [i3]; exact hcl c List.mem_cons_self
      · exact j2 x hx
    · rw [← List.append_assoc]
      exact (j3.append_right taken).trans i5
    · intro x hx hc
      unfold stagesAll at hx
      unfold finalAll
      have k1 := i6 x (fun s h => hx s (List.mem_append_left _ h)) hc
      have k2 := j4 x (fun s h => hx s (List.mem_append_right _ h)) (fun d h => hc d (sub d h))
      rw [List.forall_mem_cons, List.forall_mem_cons, List.forall_mem_append, k1, k2]
      push Not
      tauto

theorem join_apart {l : List Outline} {a : Outline} (ha : a.closed = true) (hl : ∀ c ∈ l, c.closed = true ∧ Separate c a) :
    ∃ l', joinFirst l a = .ends l' a false false ∧ l'.map (·.segs) = l.map (·.segs) ∧ ∀ c ∈ l', c.closed = true := by
  induction l with
  | nil => exact ⟨[], rfl, rfl, by simp⟩
  | cons c l ih =>
    obtain ⟨l', i1, i2, i3⟩ := ih fun x h => hl x (List.mem_cons_of_mem _ h)
    obtain ⟨hc, hs⟩ := hl c List.mem_cons_self
    obtain ⟨r, e, e1, e2, e3, e5, e4⟩ := C84_apart false hc ha hs
    refine ⟨r.out :: l', ?_, by simp [e3, i2], ?_⟩
    · unfold joinFirst addShape
      simp only [e, e1, e2, e4, Bool.false_eq_true, or_self, if_false, i1]
    · intro x hx
      rcases List.mem_cons.1 hx with rfl | hx
      · exact e5
      · exact i3 x hx

theorem put {cs : List Outline} {p : Plate} (hm : p.main.closed = true) (hd : ∀ c ∈ p.cutouts, c.closed = true)
    (hc : ∀ c ∈ cs, c.closed = true ∧ Separate p.main c) (hp : cs.Pairwise Separate) (hdc : ∀ d ∈ p.cutouts, ∀ c ∈ cs, Separate d c) :
    ∃ p', Idf.addCutouts p cs = .plate p' ∧ p'.main.segs = p.main.segs ∧ p'.cutouts.map (·.segs) = (p.cutouts ++ cs).map (·.segs) ∧
      p'.holes = p.holes := by
  induction cs generalizing p with
  | nil => exact ⟨p, rfl, rfl, by simp, rfl⟩
  | cons c cs ih =>
    obtain ⟨c1, c2⟩ := hc c List.mem_cons_self
    obtain ⟨r, e, e1, e2, e3, e5, e4⟩ := C84_apart true hm c1 c2
    obtain ⟨l', g1, g2, g3⟩ := join_apart c1 fun d h => ⟨hd d h, hdc d h c List.mem_cons_self⟩
    have run : addCutout p (some c) true = .returns { p with main := r.out, cutouts := l' ++ [c] } c true false := by
      unfold addCutout subShape
      simp only [c1, Bool.true_eq_false, if_false, e, e1, e2, e4, Bool.false_eq_true, or_self, g1]
    rw [List.pairwise_cons] at hp
    obtain ⟨p', k1, k2, k3, k4⟩ := ih (p := { p with main := r.out, cutouts := l' ++ [c] }) e5
      (by simpa [or_imp, forall_and] using ⟨g3, c1⟩)
      (fun x h => ⟨(hc x (List.mem_cons_of_mem _ h)).1, by
        unfold Separate; simp only; rw [e3]; exact (hc x (List.mem_cons_of_mem _ h)).2⟩) hp.2
      (by
        intro d hd' x hx
        simp only [List.mem_append, List.mem_cons, List.not_mem_nil, or_false] at hd'
        rcases hd' with hd' | rfl
        · have : d.segs ∈ p.cutouts.map (·.segs) := by rw [← g2]; exact List.mem_map_of_mem hd'
          obtain ⟨u, hu, eu⟩ := List.mem_map.1 this
          unfold Separate
          rw [← eu]
          exact hdc u hu x (List.mem_cons_of_mem _ hx)
        · exact hp.1 x hx)
    refine ⟨p', ?_, k2.trans e3, ?_, k4⟩
    · unfold Idf.addCutouts
      rw [run]
      exact k1
    · rw [k3]
      simp [g2]

theorem drilled {l : List Seg} (hl : ∀ d ∈ l, d.kind = .circle) (p : Plate) :
    (Idf.addDrills p l).main = p.main ∧ (Idf.addDrills p l).cutouts = p.cutouts ∧ (Idf.addDrills p l).holes = p.holes ++ l := by
  induction l generalizing p with
  | nil => simp [Idf.addDrills]
  | cons d l ih =>
    have hk := hl d List.mem_cons_self
    obtain ⟨h1, h2, h3⟩ := ih (fun x h => hl x (List.mem_cons_of_mem _ h)) { p with holes := p.holes ++ [d] }
    have e : Idf.addDrills p (d :: l) = Idf.addDrills { p with holes := p.holes ++ [d] } l := by
      rw [Idf.addDrills]
      simp [addHole, hk]
    rw [e, h1, h2, h3]
    simp

theorem edge_of {f : Seg} (hf : Made f) (hk : f.kind = .circle) :
    (edgeOf f).segs = [f] ∧ (edgeOf f).closed = true ∧ SimpleBorder (edgeOf f) ∧ Drawn [f] (edgeOf f) := by
  have e : ∃ o, addSegment Outline.new (some f) = (o, true) ∧ o.segs = [f] ∧ o.closed = true := by
    unfold addSegment
    simp [hk, Outline.new]
  obtain ⟨o, e1, e2, e3⟩ := e
  unfold edgeOf
  rw [e1]
  exact ⟨e2, e3, Or.inl ⟨f, e2, hf, hk⟩, by simpa using Drawn.took .new e1⟩

theorem in_edge {f : Seg} (hf : Made f) (hk : f.kind = .circle) {x : Point ℝ} (hx : planar2 x f.center ≠ f.radius ^ 2) :
    Inside (edgeOf f).segs x ↔ InHole f x := by
  rw [(edge_of hf hk).1, Disc.inside hk hx]
  rfl

theorem sorted (f : Seg) (l : List Seg) : (Idf.sortDrills (Idf.gap f) l).Perm l ∧ ByDistance f (Idf.sortDrills (Idf.gap f) l) := by
  obtain ⟨h1, h2⟩ := Idf.Drill.sort_spec (Idf.gap f) l
  refine ⟨h1, h2.imp fun {a b} h => ?_⟩
  unfold Idf.gap at h
  rw [hyp_planar, hyp_planar] at h
  rw [planar2_comm f.center, planar2_comm f.center]
  linarith

end Drills

open Drills in
/-- C88. The cutout that is made of a bundle of holes is the union of the holes.  `_partial`: the conditions of C83 must hold
for each of the holes when it is joined, and nothing is said about the points on the borders that occur on the way. -/
theorem C88_bundle_partial {f : Seg} {l : List Seg} {o : Outline} (h : Idf.bundleDrills (f :: l) = some o)
    (hk : ∀ d ∈ f :: l, Made d ∧ d.kind = .circle) (ht : ∀ l', l'.Perm l → ByDistance f l' → Tame false (edgeOf f) l') :
    o.closed = true ∧ SimpleBorder o ∧
    ∀ x, (∀ l', l'.Perm l → ByDistance f l' → ∀ s ∈ stages false (edgeOf f) l', OffBorder s.segs x) →
      (∀ d ∈ f :: l, planar2 x d.center ≠ d.radius ^ 2) → (Inside o.segs x ↔ ∃ d ∈ f :: l, InHole d x) := by
  obtain ⟨s1, s2⟩ := sorted f l
  obtain ⟨hf, kf⟩ := hk f List.mem_cons_self
  obtain ⟨e1, e2, e3, -⟩ := edge_of hf kf
  have mem : ∀ d, d ∈ Idf.sortDrills (Idf.gap f) l ↔ d ∈ l := fun d => s1.mem_iff
  obtain ⟨j1, j2, -, j4⟩ := joined (o := edgeOf f) h e3 (fun d hd => (hk d (List.mem_cons_of_mem _ ((mem d).1 hd))).1) (ht _ s1 s2)
  refine ⟨j2.trans e2, j1, fun x hx hc => ?_⟩
  rw [j4 x (hx _ s1 s2) (fun d hd => hc d (List.mem_cons_of_mem _ ((mem d).1 hd))), in_edge hf kf (hc f List.mem_cons_self)]
  simp only [mem, List.mem_cons, exists_eq_or_imp]

open Drills in
/-- C88. The board that is made has material exactly where the outline of the board has it, outside of the cutouts of the board
and of all drilled holes.  `_partial`: any two holes cross or have no point in common; the conditions of C83 must hold when
a hole crosses another one, the edge of the board or a cutout, and no call reports an error; the cutouts that come of it are apart from
each other and from the edge of the board; and nothing is said about the points on the borders that occur on the way. -/
theorem C88_board_partial {outlines : List (List Idf.Seg)} {drills : List (Idf.P2 × ℝ)} {main : Outline} {cs : List Outline}
    {holes ds : List Seg} {cuts : List Outline} {r : Bool}
    (hcon : Idf.convertAll outlines = some (main :: cs)) (hholes : holes = drills.map fun d => Idf.convertDrill d.1 d.2)
    (hmerge : Idf.mergeDrills holes cs = .returns ds cuts r)
    (hsimple : ∀ c ∈ main :: cs, SimpleBorder c ∧ c.closed = true)
    (hk : ∀ d ∈ holes, Made d ∧ d.kind = .circle) (hp : holes.Pairwise fun a b => HolesCross a b ∨ HolesApart a b)
    (hb : BundlesTame holes) (hm : Tame true main ds) (hc : TameAll (untaken true main ds) cuts)
    (hs : ∀ c ∈ finalAll (untaken true main ds) cuts, Separate (final true main ds) c)
    (hss : (finalAll (untaken true main ds) cuts).Pairwise Separate) :
    ∃ p, Idf.makePlate outlines drills = .plate p ∧
      ∀ x, OffBundles holes x → (∀ s ∈ stages true main ds ++ stagesAll (untaken true main ds) cuts, OffBorder s.segs x) →
        (∀ d ∈ holes, planar2 x d.center ≠ d.radius ^ 2) →
        (Material p x ↔ Inside main.segs x ∧ (∀ c ∈ cs, ¬ Inside c.segs x) ∧ ∀ d ∈ holes, ¬ InHole d x) := by
  obtain ⟨alone, bundles, hB, hM⟩ := C88_bundles holes cs (fun d h => ⟨(hk d h).2, ((made_ok (hk d h).1).circle (hk d h).2).1⟩) hp
  rw [hmerge] at hM
  obtain ⟨rfl, -, os, rfl, hos⟩ := hM
  have inA : ∀ d ∈ ds, d ∈ holes := fun d h => hB.all.subset (List.mem_append_left _ h)
  have inB : ∀ b ∈ bundles, ∀ d ∈ b, d ∈ holes := fun b hb d h =>
    hB.all.subset (List.mem_append_right _ (List.mem_flatten.2 ⟨b, hb, h⟩))
  -- the outlines of the bundles
  have made : ∀ b ∈ bundles, ∀ o, Idf.bundleDrills b = some o → o.closed = true ∧ SimpleBorder o ∧
      ∀ x, OffBundles holes x → (∀ d ∈ holes, planar2 x d.center ≠ d.radius ^ 2) → (Inside o.segs x ↔ ∃ d ∈ b, InHole d x) := by
    intro b hbb o ho
    cases b with
    | nil => have := hB.size [] hbb; simp at this
    | cons f l =>
      have ord : ∀ l', l'.Perm l → ByDistance f l' → Order holes f l l' := fun l' h1 h2 => ⟨⟨ds, bundles, hB, hbb⟩, h1, h2⟩
      obtain ⟨h1, h2, h3⟩ := C88_bundle_partial ho (fun d h => hk d (inB _ hbb d h)) fun l' a b => hb f l l' (ord l' a b)
      exact ⟨h1, h2, fun x hx hd => h3 x (fun l' a b => hx f l l' (ord l' a b)) fun d h => hd d (inB _ hbb d h)⟩
  have each : ∀ o ∈ os, ∃ b ∈ bundles, Idf.bundleDrills b = some o := by
    clear made hB hss hs hc hmerge inB
    induction hos with
    | nil => simp
    | cons h _ ih =>
      intro o ho
      rcases List.mem_cons.1 ho with rfl | ho
      · exact ⟨_, List.mem_cons_self, h⟩
      · obtain ⟨b, h1, h2⟩ := ih o ho
        exact ⟨b, List.mem_cons_of_mem _ h1, h2⟩
  have each' : ∀ b ∈ bundles, ∃ o ∈ os, Idf.bundleDrills b = some o := by
    clear made hB hss hs hc hmerge inB each
    induction hos with
    | nil => simp
    | cons h _ ih =>
      intro b hb
      rcases List.mem_cons.1 hb with rfl | hb
      · exact ⟨_, List.mem_cons_self, h⟩
      · obtain ⟨o, h1, h2⟩ := ih b hb
        exact ⟨o, List.mem_cons_of_mem _ h1, h2⟩
  have all : ∀ c ∈ cs ++ os, SimpleBorder c ∧ c.closed = true := by
    intro c h
    rcases List.mem_append.1 h with h | h
    · exact hsimple c (List.mem_cons_of_mem _ h)
    · obtain ⟨b, h1, h2⟩ := each c h
      exact ⟨(made b h1 c h2).2.1, (made b h1 c h2).1⟩
  obtain ⟨hs0, hcl0⟩ := hsimple main List.mem_cons_self
  obtain ⟨i1, -, i3, taken, i5, i6⟩ := edge hs0 (fun d h => (hk d (inA d h)).1) hm
  have inU : ∀ d ∈ untaken true main ds, d ∈ holes := fun d h => inA d (i5.subset (List.mem_append_left _ h))
  obtain ⟨rest, taken', j1, j2, j3, j4⟩ := widen_all (fun c h => (all c h).1) (fun c h => (all c h).2) (fun d h => (hk d (inU d h)).1) hc
  obtain ⟨p', k1, k2, k3, k4⟩ := put (p := ⟨final true main ds, [], []⟩) (i3.trans hcl0) (by simp) (fun c h => ⟨j2 c h, hs c h⟩) hss (by simp)
  have inR : ∀ d ∈ rest, d ∈ holes := fun d h => inU d (j3.subset (List.mem_append_left _ h))
  obtain ⟨d1, d2, d3⟩ := drilled (fun d h => (hk d (inR d h)).2) p'
  refine ⟨Idf.addDrills p' rest, ?_, fun x hx1 hx2 hx3 => ?_⟩
  · unfold Idf.makePlate
    rw [hcon]
    simp only
    rw [← hholes, hmerge]
    simp only
    rw [i1]
    simp only
    rw [j1]
    simp only
    rw [k1]
  · have m1 := i6 x (fun s h => hx2 s (List.mem_append_left _ h)) (fun d h => hx3 d (inA d h))
    have m2 := j4 x (fun s h => hx2 s (List.mem_append_right _ h)) (fun d h => hx3 d (inU d h))
    have m3 : (∀ c ∈ os, ¬ Inside c.segs x) ↔ ∀ b ∈ bundles, ∀ d ∈ b, ¬ InHole d x := by
      constructor
      · intro h b hb d hd hin
        obtain ⟨o, h1, h2⟩ := each' b hb
        exact h o h1 (((made b hb o h2).2.2 x hx1 hx3).2 ⟨d, hd, hin⟩)
      · intro h o ho hin
        obtain ⟨b, h1, h2⟩ := each o ho
        obtain ⟨d, hd, hi⟩ := ((made b h1 o h2).2.2 x hx1 hx3).1 hin
        exact h b h1 d hd hi
    have m4 : (∀ d ∈ holes, ¬ InHole d x) ↔ (∀ d ∈ taken, ¬ InHole d x) ∧ (∀ d ∈ taken', ¬ InHole d x) ∧ (∀ d ∈ rest, ¬ InHole d x) ∧
        ∀ b ∈ bundles, ∀ d ∈ b, ¬ InHole d x := by
      have e1 : ∀ d, d ∈ holes ↔ d ∈ ds ∨ ∃ b ∈ bundles, d ∈ b := fun d => by rw [← hB.all.mem_iff]; simp
      have e2 : ∀ d, d ∈ ds ↔ d ∈ untaken true main ds ∨ d ∈ taken := fun d => by rw [← i5.mem_iff]; simp
      have e3 : ∀ d, d ∈ untaken true main ds ↔ d ∈ rest ∨ d ∈ taken' := fun d => by rw [← j3.mem_iff]; simp
      constructor
      · intro h
        exact ⟨fun d hd => h d ((e1 d).2 (Or.inl ((e2 d).2 (Or.inr hd)))),
          fun d hd => h d ((e1 d).2 (Or.inl ((e2 d).2 (Or.inl ((e3 d).2 (Or.inr hd)))))),
          fun d hd => h d ((e1 d).2 (Or.inl ((e2 d).2 (Or.inl ((e3 d).2 (Or.inl hd)))))),
          fun b hb d hd => h d ((e1 d).2 (Or.inr ⟨b, hb, hd⟩))⟩
      · rintro ⟨h1, h2, h3, h4⟩ d hd
        rcases (e1 d).1 hd with hd | ⟨b, hb, hd⟩
        · rcases (e2 d).1 hd with hd | hd
          · rcases (e3 d).1 hd with hd | hd
            · exact h3 d hd
            · exact h2 d hd
          · exact h1 d hd
        · exact h4 b hb d hd
    have m5 : (∀ c ∈ p'.cutouts, ¬ Inside c.segs x) ↔ ∀ c ∈ finalAll (untaken true main ds) (cs ++ os), ¬ Inside c.segs x := none_map (by simpa using k3) x
    unfold Material
    rw [d1, d2, d3, k2, k4, List.nil_append, m5, m1, m2, List.forall_mem_append, m3, m4]
    tauto

/-- C88. A drilled hole of the IDF file becomes a circle at its place and with its diameter. -/
theorem C88_hole (pos : Idf.P2) (dia : ℝ) (h0 : 0 < dia) (h : PointMatches pos.flat ⟨pos.x + 0.5 * dia, pos.y, 0⟩ 1e-8 = false) :
    Made (Idf.convertDrill pos dia) ∧ (Idf.convertDrill pos dia).kind = .circle ∧
    (Idf.convertDrill pos dia).center = pos.flat ∧ (Idf.convertDrill pos dia).radius = dia / 2 := by
  obtain ⟨s, hs⟩ := (C61_arc_accepted pos.flat ⟨pos.x + 0.5 * dia, pos.y, 0⟩ ⟨pos.x + 0.5 * dia, pos.y, 0⟩ false).2
    ⟨⟨rfl, rfl, rfl⟩, h, h, Or.inl (C51_reflexive _ _)⟩
  have e : Idf.convertDrill pos dia = s := by unfold Idf.convertDrill; simp only; rw [hs]
  have hm : Made s := .arc hs
  rw [e]
  refine ⟨hm, ?_⟩
  unfold setArc at hs
  simp only [Idf.P2.flat] at hs h
  simp only [h, C51_reflexive, ne_eq, not_true_eq_false, or_self, if_false, Bool.false_eq_true, if_true, Prod.mk.injEq, and_true] at hs
  rw [← hs]
  refine ⟨rfl, rfl, ?_⟩
  simp only
  unfold hyp
  rw [show (pos.x + 0.5 * dia - pos.x) = dia / 2 by ring, sub_self]
  simp only [mul_zero, add_zero]
  exact Real.sqrt_mul_self (by linarith)

end Iges.Props
