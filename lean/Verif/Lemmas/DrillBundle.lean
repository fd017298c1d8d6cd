import Verif.Model.DrillBundle
import Mathlib.Logic.Relation
import Mathlib.Data.List.Perm.Basic
/-
Bundles of holes: lemmas for C88.
-/
namespace Iges.Idf.Drill
open Iges.Geo Relation

/-- `mergeDrills` finds the same both ways, and no flag -/
def Fine (a b : Geo.Seg) : Prop :=
  (meet a b = .crossing ∧ meet b a = .crossing) ∨ (meet a b = .apart ∧ meet b a = .apart)

def Free (a b : Geo.Seg) : Prop := meet a b = .apart ∧ meet b a = .apart

theorem Fine.symm {a b : Geo.Seg} (h : Fine a b) : Fine b a := by
  rcases h with ⟨h, g⟩ | ⟨h, g⟩
  · exact Or.inl ⟨g, h⟩
  · exact Or.inr ⟨g, h⟩

theorem Free.symm {a b : Geo.Seg} (h : Free a b) : Free b a := ⟨h.2, h.1⟩

/-- the two holes are of the bundle and cross -/
def Step (b : List Geo.Seg) (u v : Geo.Seg) : Prop := u ∈ b ∧ v ∈ b ∧ meet u v = .crossing

theorem Step.mono {b b' : List Geo.Seg} (h : b ⊆ b') {u v : Geo.Seg} (s : Step b u v) : Step b' u v :=
  ⟨h s.1, h s.2.1, s.2.2⟩

theorem sweep_spec {m : Geo.Seg} {l : List Geo.Seg} (h : ∀ d ∈ l, Fine m d) :
    (sweep m l).ok = true ∧ ((sweep m l).hits ++ (sweep m l).left).Perm l ∧ (sweep m l).left.Sublist l ∧
    (∀ d ∈ (sweep m l).hits, meet m d = .crossing) ∧ ∀ d ∈ (sweep m l).left, Free m d := by
  induction l with
  | nil => exact ⟨rfl, List.Perm.refl _, List.Sublist.refl _, by simp [sweep], by simp [sweep]⟩
  | cons d l ih =>
    obtain ⟨h1, h2, h3, h4, h5⟩ := ih (fun x hx => h x (List.mem_cons_of_mem _ hx))
    rcases h d List.mem_cons_self with ⟨g, -⟩ | ⟨g, g'⟩
    · unfold sweep
      rw [g]
      refine ⟨h1, by simpa using h2, h3.cons _, ?_, h5⟩
      intro x hx
      rcases List.mem_cons.1 hx with rfl | hx
      · exact g
      · exact h4 x hx
    · unfold sweep
      rw [g]
      refine ⟨h1, ?_, h3.cons_cons _, h4, ?_⟩
      · exact List.perm_middle.trans (h2.cons d)
      intro x hx
      rcases List.mem_cons.1 hx with rfl | hx
      · exact ⟨g, g'⟩
      · exact h5 x hx

theorem grow_spec (todo pre rest : List Geo.Seg) (hf : (todo ++ (pre ++ rest)).Pairwise Fine) :
    (growBundle todo pre rest).ok = true ∧
    ((growBundle todo pre rest).bundle ++ ((growBundle todo pre rest).pre ++ (growBundle todo pre rest).rest)).Perm
      (todo ++ (pre ++ rest)) ∧
    (growBundle todo pre rest).pre.Sublist pre ∧ (growBundle todo pre rest).rest.Sublist rest ∧
    (∃ t, (growBundle todo pre rest).bundle = todo ++ t) ∧
    (∀ x ∈ (growBundle todo pre rest).bundle, ∀ y ∈ (growBundle todo pre rest).pre ++ (growBundle todo pre rest).rest, Free x y) ∧
    ∀ x ∈ (growBundle todo pre rest).bundle, ∃ t ∈ todo, ReflTransGen (Step (growBundle todo pre rest).bundle) t x := by
  induction todo, pre, rest using growBundle.induct with
  | case1 pre rest => simp [growBundle]
  | case2 pre rest m todo a ha =>
    exfalso
    have := (sweep_spec (m := m) (l := pre) (fun d hd => (List.pairwise_cons.1 hf).1 d (by simp [hd]))).1
    simp only [a] at ha
    rw [this] at ha; cases ha
  | case3 pre rest m todo a ha b hb =>
    exfalso
    have := (sweep_spec (m := m) (l := rest) (fun d hd => (List.pairwise_cons.1 hf).1 d (by simp [hd]))).1
    simp only [b] at hb
    rw [this] at hb; cases hb
  | case4 pre rest m todo a ha b hb ih =>
    obtain ⟨-, a2, a3, a4, a5⟩ := sweep_spec (m := m) (l := pre) (fun d hd => (List.pairwise_cons.1 hf).1 d (by simp [hd]))
    obtain ⟨-, b2, b3, b4, b5⟩ := sweep_spec (m := m) (l := rest) (fun d hd => (List.pairwise_cons.1 hf).1 d (by simp [hd]))
    have hp : (todo ++ a.hits ++ b.hits ++ (a.left ++ b.left)).Perm (todo ++ (pre ++ rest)) := by
      have h1 : (a.hits ++ b.hits ++ (a.left ++ b.left)).Perm (pre ++ rest) := by
        refine List.Perm.trans ?_ (a2.append b2)
        simp only [List.append_assoc]
        refine List.Perm.append_left _ ?_
        rw [← List.append_assoc, ← List.append_assoc]
        exact List.Perm.append_right _ List.perm_append_comm
      simpa only [List.append_assoc] using List.Perm.append_left todo h1
    have ht := (List.pairwise_cons.1 hf).2
    obtain ⟨i1, i2, i3, i4, ⟨t, i5⟩, i6, i7⟩ := ih ((List.Perm.pairwise_iff (fun h => Fine.symm h) hp).2 ht)
    have hu : growBundle (m :: todo) pre rest =
        { growBundle (todo ++ a.hits ++ b.hits) a.left b.left with
          bundle := m :: (growBundle (todo ++ a.hits ++ b.hits) a.left b.left).bundle } := by
      rw [growBundle.eq_def]; simp only; rw [if_neg ha, if_neg hb]
    rw [hu]
    generalize growBundle (todo ++ a.hits ++ b.hits) a.left b.left = g at *
    simp only
    refine ⟨i1, ?_, i3.trans a3, i4.trans b3, ⟨a.hits ++ b.hits ++ t, by simp [i5]⟩, ?_, ?_⟩
    · exact (i2.trans hp).cons m
    · intro x hx y hy
      rcases List.mem_cons.1 hx with rfl | hx
      · rcases List.mem_append.1 hy with hy | hy
        · exact a5 y (i3.subset hy)
        · exact b5 y (i4.subset hy)
      · exact i6 x hx y hy
    · intro x hx
      rcases List.mem_cons.1 hx with rfl | hx
      · exact ⟨x, List.mem_cons_self, .refl⟩
      obtain ⟨u, hu, hr⟩ := i7 x hx
      have mono : ReflTransGen (Step (m :: g.bundle)) u x := hr.lift id fun _ _ s => s.mono (List.subset_cons_self _ _)
      have ub : u ∈ g.bundle := by rw [i5]; exact List.mem_append_left _ hu
      have first : meet m u = .crossing → ∃ v ∈ m :: todo, ReflTransGen (Step (m :: g.bundle)) v x := fun hm =>
        ⟨m, List.mem_cons_self, .head ⟨List.mem_cons_self, List.mem_cons_of_mem _ ub, hm⟩ mono⟩
      simp only [List.mem_append] at hu
      rcases hu with (hu | hu) | hu
      · exact ⟨u, List.mem_cons_of_mem _ hu, mono⟩
      · exact first (a4 u hu)
      · exact first (b4 u hu)

theorem firstMeet_clear {d : Geo.Seg} {l : List Geo.Seg} (h : ∀ x ∈ l, Free d x) : firstMeet d l = .clear := by
  induction l with
  | nil => rfl
  | cons e l ih =>
    unfold firstMeet
    rw [(h e List.mem_cons_self).1]
    simp only
    rw [ih fun x hx => h x (List.mem_cons_of_mem _ hx)]

theorem firstMeet_spec {d : Geo.Seg} {l : List Geo.Seg} (h : ∀ x ∈ l, Fine d x) :
    (firstMeet d l = .clear ∧ ∀ x ∈ l, Free d x) ∨
    ∃ b e a, firstMeet d l = .found b e a ∧ l = b ++ e :: a ∧ meet d e = .crossing ∧ meet e d = .crossing := by
  induction l with
  | nil => exact Or.inl ⟨rfl, by simp⟩
  | cons e l ih =>
    rcases h e List.mem_cons_self with ⟨g, g'⟩ | g
    · exact Or.inr ⟨[], e, l, by unfold firstMeet; rw [g], rfl, g, g'⟩
    · rcases ih fun x hx => h x (List.mem_cons_of_mem _ hx) with ⟨i1, i2⟩ | ⟨b, x, a, i1, i2, i3⟩
      · refine Or.inl ⟨by unfold firstMeet; rw [g.1]; simp only; rw [i1], ?_⟩
        intro y hy
        rcases List.mem_cons.1 hy with rfl | hy
        · exact g
        · exact i2 y hy
      · exact Or.inr ⟨e :: b, x, a, by unfold firstMeet; rw [g.1]; simp only; rw [i1], by rw [i2]; rfl, i3⟩

theorem find_spec (pre l : List Geo.Seg) (hf : (pre ++ l).Pairwise Fine) (h1 : pre.Pairwise Free)
    (h2 : ∀ x ∈ pre, ∀ y ∈ l, Free x y) :
    ∃ ds bs, findBundles pre l = .done ds bs ∧ (ds ++ bs.flatten).Perm (pre ++ l) ∧
      (∀ b ∈ bs, 2 ≤ b.length ∧ ∃ f ∈ b, ∀ x ∈ b, ReflTransGen (Step b) f x) ∧
      ds.Pairwise Free ∧ (∀ x ∈ ds, ∀ b ∈ bs, ∀ y ∈ b, Free x y) ∧
      bs.Pairwise fun b b' => ∀ x ∈ b, ∀ y ∈ b', Free x y := by
  induction hn : l.length using Nat.strong_induction_on generalizing pre l with
  | _ n ih =>
    subst hn
    cases l with
    | nil => exact ⟨pre, [], by rw [findBundles], by simp, by simp, h1, by simp, List.Pairwise.nil⟩
    | cons d l =>
      have hd := List.pairwise_cons.1 (List.pairwise_append.1 hf).2.1
      rcases firstMeet_spec hd.1 with ⟨e1, e2⟩ | ⟨b, e, a, e1, e2, c1, c2⟩
      · obtain ⟨ds, bs, i1, i2, i3⟩ := ih l.length (by simp) (pre ++ [d]) l (by simpa using hf)
          (List.pairwise_append.2 ⟨h1, by simp, fun x hx y hy => by
            rw [List.mem_singleton.1 hy]; exact h2 x hx d List.mem_cons_self⟩)
          (fun x hx y hy => by
            rcases List.mem_append.1 hx with hx | hx
            · exact h2 x hx y (List.mem_cons_of_mem _ hy)
            · rw [List.mem_singleton.1 hx]; exact e2 y hy) rfl
        refine ⟨ds, bs, ?_, by simpa using i2, i3⟩
        rw [findBundles]
        split
        · exact i1
        · rename_i hq; rw [hq] at e1; cases e1
        · rename_i hq; rw [hq] at e1; cases e1
      · subst e2
        have hperm : ([d, e] ++ (pre ++ (b ++ a))).Perm (pre ++ d :: (b ++ e :: a)) := by
          refine List.Perm.symm (List.perm_middle.trans (List.Perm.cons d ?_))
          rw [← List.append_assoc]
          refine List.perm_middle.trans ?_
          simp
        obtain ⟨g1, g2, g3, g4, ⟨t, g5⟩, g6, g7⟩ := grow_spec [d, e] pre (b ++ a)
          ((List.Perm.pairwise_iff (fun h => Fine.symm h) hperm).2 hf)
        have hdone : ∃ x y, findBundles pre (d :: (b ++ e :: a)) = (if (growBundle [d, e] pre (b ++ a)).ok = false then x
            else match firstMeet d (growBundle [d, e] pre (b ++ a)).rest with
              | .found _ _ _ => .undefined
              | .flagged => y
              | .clear =>
                match findBundles (growBundle [d, e] pre (b ++ a)).pre (growBundle [d, e] pre (b ++ a)).rest with
                | .done ds bs => .done ds ((growBundle [d, e] pre (b ++ a)).bundle :: bs)
                | r => r) := by
          rw [findBundles]
          split
          · rename_i hq; rw [hq] at e1; cases e1
          · rename_i hq; rw [hq] at e1; cases e1
          · rename_i hq; rw [hq] at e1; cases e1
            exact ⟨_, _, rfl⟩
        obtain ⟨u, v, hu⟩ := hdone
        rw [hu, if_neg (by rw [g1]; simp)]
        clear hu
        generalize growBundle [d, e] pre (b ++ a) = g at *
        have db : d ∈ g.bundle := by rw [g5]; simp
        rw [firstMeet_clear fun x hx => g6 d db x (List.mem_append_right _ hx)]
        simp only
        have hsub : (g.pre ++ g.rest).Pairwise Fine :=
          (List.pairwise_append.1 ((List.Perm.pairwise_iff (fun h => Fine.symm h) (g2.trans hperm)).2 hf)).2.1
        have glen : g.rest.length < (d :: (b ++ e :: a)).length := by
          have := g4.length_le; simp only [List.length_append, List.length_cons] at this ⊢; omega
        obtain ⟨ds, bs, i1, i2, i3, i4, i5, i6⟩ := ih _ glen g.pre g.rest hsub (h1.sublist g3)
          (fun x hx y hy => h2 x (g3.subset hx) y (by
            have := g4.subset hy; simp only [List.mem_append, List.mem_cons] at this ⊢; tauto)) rfl
        rw [i1]
        have inside : ∀ x ∈ ds ++ bs.flatten, ∀ y ∈ g.bundle, Free x y := fun x hx y hy => (g6 y hy x (i2.subset hx)).symm
        refine ⟨ds, g.bundle :: bs, rfl, ?_, ?_, i4, ?_, ?_⟩
        · refine List.Perm.trans ?_ (g2.trans hperm)
          rw [List.flatten_cons, ← List.append_assoc]
          refine (List.Perm.append_right _ List.perm_append_comm).trans ?_
          rw [List.append_assoc]
          exact List.Perm.append_left _ i2
        · intro x hx
          rcases List.mem_cons.1 hx with rfl | hx
          · refine ⟨by rw [g5]; simp, d, db, fun x hx => ?_⟩
            obtain ⟨t', ht, hr⟩ := g7 x hx
            rcases List.mem_cons.1 ht with rfl | ht
            · exact hr
            · rw [List.mem_singleton.1 ht] at hr
              exact .head ⟨db, by rw [g5]; simp, c1⟩ hr
          · exact i3 x hx
        · intro x hx c hc y hy
          rcases List.mem_cons.1 hc with rfl | hc
          · exact inside x (List.mem_append_left _ hx) y hy
          · exact i5 x hx c hc y hy
        · refine List.pairwise_cons.2 ⟨fun c hc x hx y hy => ?_, i6⟩
          exact (inside y (List.mem_append_right _ (List.mem_flatten.2 ⟨c, hc, hy⟩)) x hx).symm

theorem settle_perm (f : Geo.Seg → ℝ) (x : Geo.Seg) (l : List Geo.Seg) :
    ((settle f x l).1 :: (settle f x l).2).Perm (x :: l) ∧ ∀ y ∈ x :: l, f (settle f x l).1 ≤ f y := by
  induction l generalizing x with
  | nil => simp [settle]
  | cons y l ih =>
    unfold settle
    split
    · rename_i h
      obtain ⟨i1, i2⟩ := ih y
      refine ⟨(List.Perm.swap _ _ _).trans (i1.cons x), fun z hz => ?_⟩
      rcases List.mem_cons.1 hz with rfl | hz
      · exact (i2 y List.mem_cons_self).trans h.le
      · exact i2 z hz
    · rename_i h
      obtain ⟨i1, i2⟩ := ih x
      refine ⟨((List.Perm.swap _ _ _).trans (i1.cons y)).trans (List.Perm.swap _ _ _), fun z hz => ?_⟩
      rcases List.mem_cons.1 hz with rfl | hz
      · exact i2 z List.mem_cons_self
      · rcases List.mem_cons.1 hz with rfl | hz
        · exact (i2 x List.mem_cons_self).trans (not_lt.1 h)
        · exact i2 z (List.mem_cons_of_mem _ hz)

theorem sort_spec (f : Geo.Seg → ℝ) (l : List Geo.Seg) :
    (sortDrills f l).Perm l ∧ (sortDrills f l).Pairwise fun x y => f x ≤ f y := by
  induction hn : l.length using Nat.strong_induction_on generalizing l with
  | _ n ih =>
    subst hn
    cases l with
    | nil => rw [sortDrills]; exact ⟨.refl _, .nil⟩
    | cons x l =>
      rw [sortDrills]
      obtain ⟨s1, s2⟩ := settle_perm f x l
      obtain ⟨i1, i2⟩ := ih (settle f x l).2.length (by simp [settle_length]) _ rfl
      refine ⟨(i1.cons _).trans s1, List.pairwise_cons.2 ⟨fun y hy => s2 y ?_, i2⟩⟩
      exact s1.subset (List.mem_cons_of_mem _ (i1.subset hy))

end Iges.Idf.Drill
