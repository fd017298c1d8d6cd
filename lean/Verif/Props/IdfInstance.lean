import Verif.Lemmas.IdfPlace
import Verif.Spec.IdfInstance
/-
C86: the parts of a board are where the file says.
-/
namespace Iges.Idf.Placed
open Iges Spec

/-- C86. The transform that the converter gives to a part moves it, without changing its shape, to where it is mounted: at `(x, y)` on its
side of the board, raised from the surface and turned counterclockwise as seen when one looks at that side. -/
theorem C86_transform (th x y z a : ℝ) (side : Side) :
    let tx := calcTransform x y (z + th) (a * Real.pi / 180) (decide (side = .bottom))
    (∀ p, Mounted th side x y z a p (tx.act p)) ∧ Rigid tx.act := by
  intro tx
  obtain ⟨w, hw⟩ : ∃ w, a * Real.pi / 180 = w := ⟨_, rfl⟩
  have hcs := Real.sin_sq_add_cos_sq w
  have act : ∀ p, tx.act p = if side = .bottom
      then ⟨-(p.x * Real.cos w - p.y * Real.sin w) + x, p.x * Real.sin w + p.y * Real.cos w + y, -(z + th + p.z)⟩
      else ⟨p.x * Real.cos w - p.y * Real.sin w + x, p.x * Real.sin w + p.y * Real.cos w + y, z + th + p.z⟩ := by
    intro p
    simp only [tx, hw]
    clear tx hcs hw
    unfold calcTransform
    by_cases h0 : w = 0
    · subst h0
      cases side <;> simp [Transform.act, Mat.act, Mat.mul, Mat.one, rotateY, Point.add] <;> (try constructor) <;> ring
    · cases side <;> simp [h0, Transform.act, Mat.act, Mat.mul, Mat.one, rotateY, rotateZ, Point.add] <;>
        (try refine ⟨?_, ?_⟩) <;> ring_nf <;> simp
  refine ⟨fun p => ?_, fun p q => ?_, fun a b c d => ?_⟩
  · have he : Complex.exp ((a * Real.pi / 180 : ℝ) * Complex.I) = ⟨Real.cos w, Real.sin w⟩ := by
      rw [hw, Complex.exp_mul_I, ← Complex.ofReal_cos, ← Complex.ofReal_sin]
      apply Complex.ext <;> simp [-Complex.ofReal_cos, -Complex.ofReal_sin]
    unfold Mounted
    rw [act]
    cases side <;> simp only [reduceCtorEq, if_false, if_true, he] <;> refine ⟨?_, by ring⟩ <;> apply Complex.ext <;> simp <;> ring
  · rw [act, act]
    split <;> simp only [distance2]
    · linear_combination ((p.x - q.x) ^ 2 + (p.y - q.y) ^ 2) * hcs
    · linear_combination ((p.x - q.x) ^ 2 + (p.y - q.y) ^ 2) * hcs
  · simp only [act]
    split <;> simp only [volume6]
    · linear_combination ((b.x - a.x) * ((c.y - a.y) * (d.z - a.z) - (c.z - a.z) * (d.y - a.y)) -
        (b.y - a.y) * ((c.x - a.x) * (d.z - a.z) - (c.z - a.z) * (d.x - a.x)) +
        (b.z - a.z) * ((c.x - a.x) * (d.y - a.y) - (c.y - a.y) * (d.x - a.x))) * hcs
    · linear_combination ((b.x - a.x) * ((c.y - a.y) * (d.z - a.z) - (c.z - a.z) * (d.y - a.y)) -
        (b.y - a.y) * ((c.x - a.x) * (d.z - a.z) - (c.z - a.z) * (d.x - a.x)) +
        (b.z - a.z) * ((c.x - a.x) * (d.y - a.y) - (c.y - a.y) * (d.x - a.x))) * hcs

/-- C86. A part that reaches up from its mounting plane, and is not sunk into the board, is on its side of the board. -/
theorem C86_side {th x y z a : ℝ} {side : Side} {p q : Point ℝ} (h : Mounted th side x y z a p q) (hz : 0 ≤ z) (hp : 0 ≤ p.z) :
    (side = .top → th ≤ q.z) ∧ (side = .bottom → q.z ≤ -th) := by
  cases side <;> refine ⟨fun e => ?_, fun e => ?_⟩ <;> try cases e
  · rw [h.2]; linarith
  · rw [h.2]; linarith

/-- an outline of a component, with its place on the board -/
structure Site where
  label : Str
  outline : Option (Str × Str)
  side : Side
  x : ℚ
  y : ℚ
  z : ℚ
  a : ℚ

def sitesOf (c : Comp) : List Site :=
  match c.pos with
  | none => []
  | some p => c.outs.map fun o => ⟨c.refdes, o.outline, p.side, p.x + o.x, p.y + o.y, o.z, p.a + o.a⟩

def sites (m : SMap Comp) : List Site := m.flatMap fun e => sitesOf e.2

def Good (m : SMap Comp) : Prop := ∀ e ∈ m, e.2.refdes = e.1 ∧ (e.2.pos = none → e.2.placement = none ∧ e.2.outs = [])

theorem find_mem {α : Type} {m : SMap α} {k : Str} {c : α} (h : SMap.find k m = some c) : (k, c) ∈ m := by
  induction m with
  | nil => cases h
  | cons e r ih =>
    obtain ⟨k', c'⟩ := e
    unfold SMap.find at h
    split at h
    · rename_i hk
      cases h
      rw [hk]; simp
    · exact List.mem_cons_of_mem _ (ih h)

theorem add_perm {α : Type} (m : SMap α) (k : Str) (c : α) : (SMap.add k c m).Perm ((k, c) :: m) := by
  induction m with
  | nil => exact List.Perm.refl _
  | cons e r ih =>
    unfold SMap.add
    split
    · exact List.Perm.refl _
    · exact (ih.cons _).trans (List.Perm.swap _ _ _)

theorem change_perm {m : SMap Comp} {k : Str} {c c' : Comp} {extra : List Site} (h : SMap.find k m = some c)
    (hs : (sitesOf c').Perm (extra ++ sitesOf c)) : (sites (SMap.change k c' m)).Perm (extra ++ sites m) := by
  induction m with
  | nil => cases h
  | cons e r ih =>
    obtain ⟨k', c0⟩ := e
    unfold SMap.find at h
    unfold SMap.change
    split at h
    · rename_i hk
      cases h
      rw [if_pos hk]
      simp only [sites, List.flatMap_cons]
      rw [← List.append_assoc]
      exact hs.append_right _
    · rename_i hk
      rw [if_neg hk]
      simp only [sites, List.flatMap_cons] at ih ⊢
      refine ((ih h).append_left _).trans ?_
      rw [← List.append_assoc, ← List.append_assoc]
      exact (List.perm_append_comm).append_right _

theorem change_mem {α : Type} {m : SMap α} {k : Str} {c : α} {e : Str × α} (h : e ∈ SMap.change k c m) : e ∈ m ∨ e = (k, c) := by
  induction m with
  | nil => cases h
  | cons f r ih =>
    obtain ⟨k', c'⟩ := f
    unfold SMap.change at h
    split at h
    · rename_i hk
      rcases List.mem_cons.1 h with h | h
      · right; rw [h, hk]
      · left; simp [h]
    · rcases List.mem_cons.1 h with h | h
      · left; simp [h]
      · rcases ih h with h | h
        · left; simp [h]
        · right; exact h

theorem store_sites {noSub : Bool} {b b' : PBoard} {r : PlaceRec} (hg : Good b.comps) (h : storePlace noSub b r = some b') :
    Good b'.comps ∧ b'.cad = b.cad ∧ b'.lib = (findOutline noSub b.lib r.geom r.part).2 ∧ ∃ n, NameOf r n ∧
      (sites b'.comps).Perm (⟨n, (findOutline noSub b.lib r.geom r.part).1, r.side, r.x, r.y, r.z, r.a⟩ :: sites b.comps) := by
  unfold storePlace at h
  simp only at h
  obtain ⟨n, nx, hname, h⟩ : ∃ n nx, NameOf r n ∧ (match b.comps.find n with
      | none => some ⟨b.cad, (findOutline noSub b.lib r.geom r.part).2, b.comps.add n ⟨n, some ⟨r.x, r.y, r.a, r.side⟩, some r.placement,
          [⟨(findOutline noSub b.lib r.geom r.part).1, 0, 0, r.z, 0⟩], []⟩, nx⟩
      | some c =>
        match c.pos with
        | some p =>
          if r.side ≠ p.side then none
          else if some r.placement ≠ c.placement then none
          else some ⟨b.cad, (findOutline noSub b.lib r.geom r.part).2, b.comps.change n { c with outs := c.outs ++
            [⟨(findOutline noSub b.lib r.geom r.part).1, r.x - p.x, r.y - p.y, r.z, r.a - p.a⟩] }, nx⟩
        | none =>
          if (c.placement = some .mcad ∧ b.cad ≠ .mech) ∨ (c.placement = some .ecad ∧ b.cad ≠ .elec) then
            if some r.placement ≠ c.placement then none
            else some ⟨b.cad, (findOutline noSub b.lib r.geom r.part).2, b.comps.change n { c with outs := c.outs ++
              [⟨(findOutline noSub b.lib r.geom r.part).1, 0, 0, r.z, 0⟩] }, nx⟩
          else some ⟨b.cad, (findOutline noSub b.lib r.geom r.part).2, b.comps.change n ⟨c.refdes, some ⟨r.x, r.y, r.a, r.side⟩, some r.placement,
            c.outs ++ [⟨(findOutline noSub b.lib r.geom r.part).1, 0, 0, r.z, 0⟩], c.drills⟩, nx⟩) = some b' := by
    cases hr : r.ref with
    | none => rw [hr] at h; exact ⟨_, _, Or.inr ⟨hr, b.next, rfl⟩, h⟩
    | some m => rw [hr] at h; exact ⟨_, _, Or.inl hr, h⟩
  generalize findOutline noSub b.lib r.geom r.part = o at h ⊢
  cases hf : b.comps.find n with
  | none =>
    rw [hf] at h
    cases h
    refine ⟨fun e he => ?_, rfl, rfl, n, hname, ?_⟩
    · rcases List.mem_cons.1 ((add_perm _ _ _).mem_iff.1 he) with e' | e'
      · subst e'
        exact ⟨rfl, by intro h; cases h⟩
      · exact hg e e'
    · refine ((add_perm _ _ _).flatMap_right _).trans ?_
      simp [sites, sitesOf]
  | some c =>
    obtain ⟨hr, hgc⟩ := hg _ (find_mem hf)
    simp only at hr
    rw [hf] at h
    simp only at h
    cases hp : c.pos with
    | none =>
      have h1 : c.placement = none := (hgc hp).1
      have h2 : c.outs = [] := (hgc hp).2
      rw [hp] at h
      rw [if_neg (by simp [h1])] at h
      cases h
      refine ⟨fun e he => ?_, rfl, rfl, n, hname, ?_⟩
      · rcases change_mem he with e' | e'
        · exact hg e e'
        · subst e'
          exact ⟨hr, by intro h; cases h⟩
      · refine change_perm (extra := [_]) hf ?_
        simp [sitesOf, hp, h2, hr]
    | some p =>
      rw [hp] at h
      simp only at h
      split at h
      · cases h
      rename_i hside
      split at h
      · cases h
      cases h
      refine ⟨fun e he => ?_, rfl, rfl, n, hname, ?_⟩
      · rcases change_mem he with e' | e'
        · exact hg e e'
        · subst e'
          refine ⟨hr, fun h => ?_⟩
          cases h
      · refine change_perm (extra := [_]) hf ?_
        simp only [sitesOf, hp, List.map_append, List.map_cons, List.map_nil, hr]
        have : r.side = p.side := by simpa using hside
        rw [this]
        have e1 : p.x + (r.x - p.x) = r.x := by ring
        have e2 : p.y + (r.y - p.y) = r.y := by ring
        have e3 : p.a + (r.a - p.a) = r.a := by ring
        rw [e1, e2, e3]
        exact List.perm_append_comm

noncomputable def instOf (models : Str → Bool) (th : ℝ) (s : Site) : Option Instance :=
  s.outline.bind fun o => if models (outUid o.1 o.2) then
    some ⟨s.label, outUid o.1 o.2, calcTransform s.x s.y (s.z + th) (s.a * Real.pi / 180) (decide (s.side = .bottom))⟩ else none

theorem placeOutlines_eq (models : Str → Bool) (th : ℝ) (c : Comp) (p : CompPos) (hp : c.pos = some p) (outs : List OutData) :
    ((∃ o ∈ outs, o.outline = none) → placeOutlines models th c outs = .undefined) ∧
    ((∀ o ∈ outs, o.outline ≠ none) → placeOutlines models th c outs = .made
      ((outs.map fun o => (⟨c.refdes, o.outline, p.side, p.x + o.x, p.y + o.y, o.z, p.a + o.a⟩ : Site)).filterMap (instOf models th))) := by
  induction outs with
  | nil => simp [placeOutlines]
  | cons o rest ih =>
    unfold placeOutlines
    cases ho : o.outline with
    | none =>
      refine ⟨fun _ => rfl, fun h => absurd ho (h o (by simp))⟩
    | some w =>
      obtain ⟨g, q⟩ := w
      constructor
      · rintro ⟨o', ho', e⟩
        rcases List.mem_cons.1 ho' with h | h
        · subst h; rw [ho] at e; cases e
        · simp only [ih.1 ⟨o', h, e⟩]
      · intro h
        simp only [ih.2 fun o ho => h o (by simp [ho]), hp, List.map_cons, List.filterMap_cons, instOf, ho, Option.bind_some]
        by_cases hm : models (outUid g q) = true
        · simp only [hm, Bool.true_eq_false, if_false, if_true, Option.map_some, Option.getD_some, Option.some.injEq]
          push_cast
          rw [add_comm (o.x : ℝ), add_comm (o.y : ℝ), add_comm (o.a : ℝ)]
        · simp [hm]

theorem placeComponents_eq (models : Str → Bool) (th : ℝ) {m : SMap Comp} (hg : Good m) :
    ((∃ s ∈ sites m, s.outline = none) → placeComponents models th m = .undefined) ∧
    ((∀ s ∈ sites m, s.outline ≠ none) → placeComponents models th m = .made ((sites m).filterMap (instOf models th))) := by
  induction m with
  | nil => simp [placeComponents, sites]
  | cons e rest ih =>
    obtain ⟨k, c⟩ := e
    have hc := (hg (k, c) (by simp)).2
    have hg' : Good rest := fun e he => hg e (by simp [he])
    obtain ⟨i1, i2⟩ := ih hg'
    have key : ((∃ s ∈ sitesOf c, s.outline = none) → placeOutlines models th c c.outs = .undefined) ∧
        ((∀ s ∈ sitesOf c, s.outline ≠ none) → placeOutlines models th c c.outs = .made ((sitesOf c).filterMap (instOf models th))) := by
      cases hp : c.pos with
      | none =>
        have : c.outs = [] := (hc hp).2
        simp [sitesOf, hp, this, placeOutlines]
      | some p =>
        have := placeOutlines_eq models th c p hp c.outs
        simp only [sitesOf, hp]
        simpa using this
    have hcons : sites ((k, c) :: rest) = sitesOf c ++ sites rest := rfl
    rw [hcons]
    unfold placeComponents
    constructor
    · rintro ⟨s, hs, e⟩
      by_cases hx : ∃ s ∈ sitesOf c, s.outline = none
      · simp only [key.1 hx]
      · have hx' : ∀ s ∈ sitesOf c, s.outline ≠ none := fun s hs e => hx ⟨s, hs, e⟩
        rcases List.mem_append.1 hs with h | h
        · exact absurd ⟨s, h, e⟩ hx
        · simp only [key.2 hx', i1 ⟨s, h, e⟩]
    · intro h
      simp only [key.2 fun s hs => h s (by simp [hs]), i2 fun s hs => h s (by simp [hs]), List.filterMap_append]

/-- C86. A placement section has been read into a board on which nothing was placed, and every record names a part of the library.  Then the
converter makes one instance for each record whose part has a model, and no others; it has the name of the component as its label,
and shows the part where the record says. -/
theorem C86_placed {u : Unit} {v : Version} {n : ℕ} {b b' : PBoard} {s rest : List Str} (noSub : Bool) (hb : Bare b) (hk : Keyed b)
    (h : readPlacement u v noSub n b s = some (b', rest)) :
    ∃ recs names, Records b.cad u v s recs rest ∧ List.Forall₂ NameOf recs names ∧
      ((∀ r ∈ recs, ∃ o, b.lib.find (uidOf r.geom r.part) = some o) → ∀ (models : Str → Bool) (th : ℝ),
        ∃ l l', placeComponents models th b'.comps = .made l ∧ l.Perm l' ∧
          List.Forall₂ (fun x i => Shows th x.1 x.2 i) ((recs.zip names).filter fun x => models (uidOf x.1.geom x.1.part)) l') := by
  have main : ∀ (n : ℕ) (b : PBoard) (s : List Str), Good b.comps → Keyed b → readPlacement u v noSub n b s = some (b', rest) →
      ∃ recs names, Records b.cad u v s recs rest ∧ List.Forall₂ NameOf recs names ∧ Good b'.comps ∧
        ((∀ r ∈ recs, ∃ o, b.lib.find (uidOf r.geom r.part) = some o) → ∃ new, (sites b'.comps).Perm (new ++ sites b.comps) ∧
          List.Forall₂ (fun (x : PlaceRec × Str) (t : Site) => ∃ o, t = ⟨x.2, some o, x.1.side, x.1.x, x.1.y, x.1.z, x.1.a⟩ ∧
            outUid o.1 o.2 = uidOf x.1.geom x.1.part) (recs.zip names) new) := by
    intro n
    induction n with
    | zero => intro b s _ _ h; cases h
    | succ n ih =>
      intro b s hg hk h
      unfold readPlacement at h
      cases hr : readPlaceRec b.cad u v s with
      | error => rw [hr] at h; cases h
      | finish rest' =>
        rw [hr] at h
        cases h
        exact ⟨[], [], .done hr, .nil, hg, fun _ => ⟨[], by simp, .nil⟩⟩
      | item r s' =>
        rw [hr] at h
        simp only at h
        cases hs : storePlace noSub b r with
        | none => rw [hs] at h; cases h
        | some b1 =>
          rw [hs] at h
          simp only at h
          obtain ⟨hg1, hcad, hlib, nm, hnm, hperm⟩ := store_sites hg hs
          have hk1 : Keyed b1 := by
            intro k o ho
            rw [hlib] at ho
            unfold findOutline at ho
            cases hf : b.lib.find (uidOf r.geom r.part) with
            | some w => simp only [hf] at ho; exact hk k o ho
            | none =>
              simp only [hf] at ho
              cases noSub with
              | true => exact hk k o ho
              | false =>
                simp only [Bool.false_eq_true, if_false, invalidOutline] at ho
                generalize hnames : (if r.geom = [] ∧ r.part = [] then ("NOGEOM".toList, "NOPART".toList) else (r.geom, r.part)) = names at ho
                have hne : ¬ (names.1 = [] ∧ names.2 = []) := by
                  rw [← hnames]
                  split
                  · rintro ⟨e, -⟩; simp at e
                  · assumption
                cases hq : b.lib.find (uidOf names.1 names.2) with
                | some w => simp only [hq] at ho; exact hk k o ho
                | none =>
                  simp only [hq] at ho
                  rw [find_add _ _ _ hq] at ho
                  split at ho
                  · rename_i e
                    cases ho
                    rw [e]
                    unfold outUid
                    rw [if_neg hne]
                  · exact hk k o ho
          obtain ⟨recs, names, i1, i2, i3, i4⟩ := ih b1 s' hg1 hk1 h
          refine ⟨r :: recs, nm :: names, .more hr (by rw [← hcad]; exact i1), .cons hnm i2, i3, fun hall => ?_⟩
          obtain ⟨o, ho⟩ := hall r (by simp)
          have hfo : findOutline noSub b.lib r.geom r.part = (some o, b.lib) := by unfold findOutline; rw [ho]
          rw [hfo] at hlib hperm
          obtain ⟨new, j1, j2⟩ := i4 (fun r' hr' => by rw [hlib]; exact hall r' (by simp [hr']))
          refine ⟨⟨nm, some o, r.side, r.x, r.y, r.z, r.a⟩ :: new, ?_, ?_⟩
          · refine j1.trans ((hperm.append_left _).trans ?_)
            exact List.perm_middle
          · exact .cons ⟨o, rfl, hk _ _ ho⟩ j2
  have hg0 : Good b.comps := fun e he => ⟨(hb e he).1, fun _ => (hb e he).2.2⟩
  have hs0 : sites b.comps = [] := by
    unfold sites
    rw [List.flatMap_eq_nil_iff]
    intro e he
    simp [sitesOf, (hb e he).2.1]
  obtain ⟨recs, names, h1, h2, h3, h4⟩ := main n b s hg0 hk h
  refine ⟨recs, names, h1, h2, fun hall models th => ?_⟩
  obtain ⟨new, h5, h6⟩ := h4 hall
  rw [hs0, List.append_nil] at h5
  have hsome : ∀ s ∈ new, s.outline ≠ none := by
    clear h5
    generalize recs.zip names = xs at h6
    induction h6 with
    | nil => simp
    | cons hx _ ih =>
      obtain ⟨o, e, -⟩ := hx
      intro s hs
      rcases List.mem_cons.1 hs with rfl | hs
      · rw [e]; simp
      · exact ih s hs
  refine ⟨_, new.filterMap (instOf models th), (placeComponents_eq models th h3).2 (fun s hs => hsome s (h5.mem_iff.1 hs)), h5.filterMap _, ?_⟩
  clear h5 hsome h1 h2 h4 hall
  generalize recs.zip names = xs at h6 ⊢
  induction h6 with
  | nil => exact .nil
  | @cons x t xs ts hx _ ih =>
    obtain ⟨o, rfl, hu⟩ := hx
    by_cases hm : models (uidOf x.1.geom x.1.part) = true
    · rw [List.filter_cons, if_pos hm]
      have : instOf models th ⟨x.2, some o, x.1.side, x.1.x, x.1.y, x.1.z, x.1.a⟩ = some ⟨x.2, uidOf x.1.geom x.1.part,
          calcTransform x.1.x x.1.y (x.1.z + th) (x.1.a * Real.pi / 180) (decide (x.1.side = .bottom))⟩ := by
        simp [instOf, hu, hm]
      rw [List.filterMap_cons_some this]
      obtain ⟨k1, k2⟩ := C86_transform th x.1.x x.1.y x.1.z x.1.a x.1.side
      exact .cons ⟨rfl, rfl, k1, k2⟩ ih
    · rw [List.filter_cons, if_neg hm]
      have : instOf models th ⟨x.2, some o, x.1.side, x.1.x, x.1.y, x.1.z, x.1.a⟩ = none := by
        simp [instOf, hu, hm]
      rw [List.filterMap_cons_none this]
      exact ih

/-- C86 (what fails). The converter reads boards without substitutes for parts that are not in the library.  If the placement section has a
record whose part is not in the library, then the component has a null pointer for its outline, and the converter calls a function through it. -/
theorem C86_unknown_part {u : Unit} {v : Version} {n : ℕ} {b b' : PBoard} {s rest : List Str} (hb : Bare b)
    (h : readPlacement u v true n b s = some (b', rest)) :
    ∃ recs, Records b.cad u v s recs rest ∧ ((∃ r ∈ recs, b.lib.find (uidOf r.geom r.part) = none) →
      ∀ (models : Str → Bool) (th : ℝ), placeComponents models th b'.comps = .undefined) := by
  have main : ∀ (n : ℕ) (b : PBoard) (s : List Str), Good b.comps → readPlacement u v true n b s = some (b', rest) →
      Good b'.comps ∧ (∀ t ∈ sites b.comps, t ∈ sites b'.comps) ∧ ∃ recs, Records b.cad u v s recs rest ∧
        ((∃ r ∈ recs, b.lib.find (uidOf r.geom r.part) = none) → ∃ t ∈ sites b'.comps, t.outline = none) := by
    intro n
    induction n with
    | zero => intro b s _ h; cases h
    | succ n ih =>
      intro b s hg h
      unfold readPlacement at h
      cases hr : readPlaceRec b.cad u v s with
      | error => rw [hr] at h; cases h
      | finish rest' =>
        rw [hr] at h
        cases h
        exact ⟨hg, fun _ ht => ht, [], .done hr, by rintro ⟨r, h, -⟩; cases h⟩
      | item r s' =>
        rw [hr] at h
        simp only at h
        cases hs : storePlace true b r with
        | none => rw [hs] at h; cases h
        | some b1 =>
          rw [hs] at h
          simp only at h
          obtain ⟨hg1, hcad, hlib, nm, -, hperm⟩ := store_sites hg hs
          have hl : b1.lib = b.lib := by
            rw [hlib]
            unfold findOutline
            cases b.lib.find (uidOf r.geom r.part) <;> rfl
          obtain ⟨i1, i2, recs, i3, i4⟩ := ih b1 s' hg1 h
          refine ⟨i1, fun t ht => i2 t (hperm.mem_iff.2 (by simp [ht])), r :: recs, .more hr (by rw [← hcad]; exact i3), ?_⟩
          rintro ⟨r', hr', hnone⟩
          rcases List.mem_cons.1 hr' with e | e
          · subst e
            refine ⟨_, i2 _ (hperm.mem_iff.2 (List.mem_cons_self)), ?_⟩
            simp [findOutline, hnone]
          · exact i4 ⟨r', e, by rw [hl]; exact hnone⟩
  obtain ⟨h1, -, recs, h2, h3⟩ := main n b s (fun e he => ⟨(hb e he).1, fun _ => (hb e he).2.2⟩) h
  exact ⟨recs, h2, fun hx models th => (placeComponents_eq models th h1).1 (h3 hx)⟩

/-- a section with a part on each side; two of its records are about the same component -/
def exSection : List Str := lines "\"SO\" \"8\" U1\n10 20 0 90 TOP PLACED\n\"SO\" \"8\" U1\n10 30 0 0 TOP PLACED\n\"SO\" \"8\" R2\n1 2 0 45 BOTTOM PLACED\n.END_PLACEMENT\n".toList

def exLib : SMap (Str × Str) := [("SO_8".toList, ("SO".toList, "8".toList))]

/-- the records are read -/
theorem ex_read (lib : SMap (Str × Str)) (hl : lib = exLib ∨ lib = []) : ∃ b' rest, readPlacement .mm .v3 true 9 ⟨.elec, lib, [], 0⟩ exSection = some (b', rest) := by
  have : (readPlacement .mm .v3 true 9 ⟨.elec, lib, [], 0⟩ exSection).isSome = true := by
    rcases hl with rfl | rfl <;> decide +kernel
  obtain ⟨w, hw⟩ := Option.isSome_iff_exists.1 this
  exact ⟨w.1, w.2, hw⟩

def nrecs : ℕ → List Str → List PlaceRec
  | 0, _ => []
  | n + 1, s => match readPlaceRec .elec .mm .v3 s with | .item r s' => r :: nrecs n s' | _ => []

theorem recs_eq {s : List Str} {recs : List PlaceRec} {rest : List Str} (h : Records .elec .mm .v3 s recs rest) (n : ℕ) (hn : recs.length ≤ n) : nrecs n s = recs := by
  induction h generalizing n with
  | done h => cases n with | zero => rfl | succ n => simp [nrecs, h]
  | more h _ ih =>
    cases n with
    | zero => simp at hn
    | succ n => simp only [nrecs, h]; rw [ih n (by simpa using hn)]

theorem recs_len {s : List Str} {recs : List PlaceRec} {rest : List Str} (h : Records .elec .mm .v3 s recs rest) (n : ℕ) : (nrecs n s).length = min n recs.length := by
  induction h generalizing n with
  | done h => cases n with | zero => rfl | succ n => simp [nrecs, h]
  | more h _ ih =>
    cases n with
    | zero => simp [nrecs]
    | succ n => simp only [nrecs, h, List.length_cons, ih]; omega

theorem ex_recs {recs : List PlaceRec} {rest : List Str} (h : Records .elec .mm .v3 exSection recs rest) :
    recs.length = 3 ∧ ∀ r ∈ recs, uidOf r.geom r.part = "SO_8".toList := by
  have h1 := recs_len h 4
  have h2 : (nrecs 4 exSection).length = 3 := by decide +kernel
  have h3 : recs.length = 3 := by omega
  have h4 := recs_eq h 4 (by omega)
  refine ⟨h3, ?_⟩
  have h5 : ((nrecs 4 exSection).all fun r => decide (uidOf r.geom r.part = "SO_8".toList)) = true := by decide +kernel
  rw [h4] at h5
  intro r hr
  simpa using List.all_eq_true.1 h5 r hr

/-- `C86_placed` for that section: three instances -/
example (th : ℝ) : ∃ b' rest l, readPlacement .mm .v3 true 9 ⟨.elec, exLib, [], 0⟩ exSection = some (b', rest) ∧
    placeComponents (fun _ => true) th b'.comps = .made l ∧ l.length = 3 := by
  obtain ⟨b', rest, h⟩ := ex_read exLib (Or.inl rfl)
  have hk : Keyed ⟨.elec, exLib, [], 0⟩ := by
    intro k o ho
    simp only [exLib, SMap.find] at ho
    split at ho
    · rename_i e
      cases ho
      rw [← e]
      decide +kernel
    · cases ho
  obtain ⟨recs, names, h1, h2, h3⟩ := C86_placed true (by intro e he; cases he) hk h
  obtain ⟨e1, e2⟩ := ex_recs h1
  obtain ⟨l, l', g1, g2, g3⟩ := h3 (fun r hr => by rw [e2 r hr]; exact ⟨_, rfl⟩) (fun _ => true) th
  refine ⟨b', rest, l, h, g1, ?_⟩
  rw [g2.length_eq, ← g3.length_eq]
  simp [← h2.length_eq, e1]

/-- the same section, read with an empty library -/
theorem C86_crash (models : Str → Bool) (th : ℝ) : ∃ b' rest, readPlacement .mm .v3 true 9 ⟨.elec, [], [], 0⟩ exSection = some (b', rest) ∧
    placeComponents models th b'.comps = .undefined := by
  obtain ⟨b', rest, h⟩ := ex_read [] (Or.inr rfl)
  obtain ⟨recs, h1, h2⟩ := C86_unknown_part (by intro e he; cases he) h
  obtain ⟨e1, -⟩ := ex_recs h1
  refine ⟨b', rest, h, h2 ?_ models th⟩
  obtain ⟨r, hr⟩ := List.exists_mem_of_length_pos (l := recs) (by omega)
  exact ⟨r, hr, rfl⟩

end Iges.Idf.Placed
