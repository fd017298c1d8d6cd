import Verif.Spec.Accessors
import Mathlib.Tactic.NormNum
/-
C101: what is set through the handle of an entity is what is read back.
-/
namespace Iges.Props.Accessors
open Iges Iges.Handle Iges.Handle.Spec

private theorem set_rgb (k : Colour) {r g b : ℚ} (h : Fine (SetCall.rgb r g b)) :
    setEnt (c := .colour) k (.rgb r g b) = ({ k with red := r, green := g, blue := b }, true) := by
  refine if_neg ?_
  simp only [not_or, not_lt, gt_iff_lt]
  exact ⟨h.1.1, h.1.2, h.2.1.1, h.2.1.2, h.2.2.1, h.2.2.2⟩

private theorem set_rgb_not (k : Colour) {r g b : ℚ} (h : ¬ Fine (SetCall.rgb r g b)) :
    setEnt (c := .colour) k (.rgb r g b) = (k, false) := by
  refine if_pos ?_
  by_contra h'
  simp only [not_or, not_lt, gt_iff_lt] at h'
  exact h ⟨⟨h'.1, h'.2.1⟩, ⟨h'.2.2.1, h'.2.2.2.1⟩, h'.2.2.2.2.1, h'.2.2.2.2.2⟩

private theorem set_prop (p : Prop406) (hp : p.form = 15) (n : Str) :
    setEnt (c := .property) p (.propName (some n)) = ({ p with name := n }, true) := if_pos hp

private theorem fine_call {c : Cls} (e : EntOf c) (hf : NameForm e) (k : SetCall c) (hk : Fine k) :
    (setEnt e k).2 = true ∧ NameForm (setEnt e k).1 := by
  cases k
  case rgb r g b => rw [set_rgb e hk]; exact ⟨rfl, trivial⟩
  case root m => cases m with
    | none => exact absurd rfl hk
    | some m => exact ⟨rfl, trivial⟩
  case propName n => cases n with
    | none => exact absurd rfl hk
    | some n => rw [set_prop e hf]; exact ⟨rfl, hf⟩
  all_goals exact ⟨rfl, trivial⟩

private theorem other_call {c : Cls} (e : EntOf c) (k : SetCall c) (hk : ¬ Fine k) : setEnt e k = (e, false) := by
  cases k
  case rgb r g b => exact set_rgb_not e hk
  case root m => cases m with
    | none => rfl
    | some m => exact absurd (by intro h; cases h) hk
  case propName n => cases n with
    | none => rfl
    | some n => exact absurd (by intro h; cases h) hk
  all_goals exact absurd trivial hk

/-- **C101_accepted**: on a valid handle a setter answers `true` exactly if its arguments are acceptable; otherwise the entity is as
before. The handle stays valid. -/
theorem C101_accepted {c : Cls} (e : EntOf c) (hf : NameForm e) (k : SetCall c) :
    ∃ e' b, set (some e) k = some (some e', b) ∧ (b = true ↔ Fine k) ∧ (b = false → e' = e) ∧ NameForm e' := by
  refine ⟨(setEnt e k).1, (setEnt e k).2, rfl, ?_⟩
  by_cases hk : Fine k
  · have h := fine_call e hf k hk
    exact ⟨⟨fun _ => hk, fun _ => h.1⟩, fun h' => (by rw [h.1] at h'; cases h'), h.2⟩
  · rw [other_call e k hk]
    exact ⟨⟨fun h => (by cases h), fun h => absurd h hk⟩, fun _ => rfl, hf⟩

private theorem shown_name (s : Str) (i : Nat) : ((nameOf s).getD [Val.txt []])[i]? = [Val.txt s][i]? := by
  unfold nameOf
  split
  · rename_i h; rw [h]; rfl
  · rfl

private theorem flag_fin (p : Fin 4) : flagOf (p.val : Int) = p.val := by
  unfold flagOf
  rw [if_neg]
  have := p.isLt
  omega

/-- One call changes at each place what it gives there, and nothing else. -/
private theorem step {c : Cls} (hc : c ≠ .extrusion) (e : EntOf c) (hf : NameForm e) (k : SetCall c) (hk : Fine k) (p : Slot c × Nat) :
    shown (setEnt e k).1 p = ((gives k).lookup p).or (shown e p) := by
  obtain ⟨s, i⟩ := p
  cases k
  case generatrixEnd => exact absurd rfl hc
  case rgb r g b =>
    rw [set_rgb e hk]
    cases s <;> rcases i with _ | _ | _ | i <;> rfl
  case root m =>
    cases m with
    | none => exact absurd rfl hk
    | some m => cases s; rcases i with _ | i <;> rfl
  case propName n =>
    cases n with
    | none => exact absurd rfl hk
    | some n =>
      rw [set_prop e hf]
      cases s
      have h1 : shown (c := .property) { e with name := n } (.propName, i) = [Val.txt n][i]? := by
        show ((if e.form = 15 then some [Val.txt n] else none).getD _)[i]? = _
        rw [if_pos (show e.form = 15 from hf)]; rfl
      have h2 : shown (c := .property) e (.propName, i) = [Val.txt e.name][i]? := by
        show ((if e.form = 15 then some [Val.txt e.name] else none).getD _)[i]? = _
        rw [if_pos (show e.form = 15 from hf)]; rfl
      rw [h1, h2]
      rcases i with _ | i <;> rfl
  case figName n =>
    cases s
    show ((nameOf (n.getD [])).getD _)[i]? = Option.or _ ((nameOf e).getD _)[i]?
    rw [shown_name, shown_name]
    rcases i with _ | i <;> rfl
  case colourName n =>
    cases s
    · rfl
    · show ((nameOf (n.getD [])).getD _)[i]? = Option.or _ ((nameOf e.cname).getD _)[i]?
      rw [shown_name, shown_name]
      rcases i with _ | i <;> rfl
  case preference q =>
    cases s
    · show [Val.int (flagOf (q.val : Int))][i]? = _
      rw [flag_fin]
      rcases i with _ | i <;> rfl
    · rfl
  case creation q =>
    cases s
    · rfl
    · show [Val.int (flagOf (q.val : Int))][i]? = _
      rw [flag_fin]
      rcases i with _ | i <;> rfl
  all_goals cases s <;> rcases i with _ | _ | _ | _ | _ | _ | i <;> rfl

/-- **C101_last_partial**: after any calls on a valid handle, every getter shows at every place the value given last by a call with
acceptable arguments, and the value of the beginning if none was. Missing: the end of the generatrix of a tabulated cylinder
(`C101_generatrix_wrong`). -/
theorem C101_last_partial {c : Cls} (hc : c ≠ .extrusion) (e : EntOf c) (hf : NameForm e) (ks : List (SetCall c)) :
    ∃ e', run (some e) ks = some (some e') ∧ ∀ p, shown e' p = last p (shown e p) ks := by
  induction ks generalizing e with
  | nil => exact ⟨e, rfl, fun _ => rfl⟩
  | cons k ks ih =>
    by_cases hk : Fine k
    · obtain ⟨e', h1, h2⟩ := ih (setEnt e k).1 (fine_call e hf k hk).2
      refine ⟨e', h1, fun p => ?_⟩
      rw [h2, last, if_pos hk, step hc e hf k hk]
    · obtain ⟨e', h1, h2⟩ := ih e hf
      refine ⟨e', ?_, fun p => ?_⟩
      · show run (some (setEnt e k).1) ks = _
        rw [other_call e k hk]; exact h1
      · rw [h2, last, if_neg hk]

/-- **C101_answer**: every getter of a valid handle answers, with as many values as it is asked for; only an empty name of a subfigure
or a colour is answered by `false`. -/
theorem C101_answer {c : Cls} (e : EntOf c) (hf : NameForm e) (s : Slot c) :
    (∃ vs, get (some e) s = some (some vs) ∧ vs.length = arity s ∧ ∀ i : Nat, vs[i]? = shown e (s, i)) ∨
    (get (some e) s = some none ∧ IsName s ∧ shown e (s, 0) = some (.txt [])) := by
  have hn (n : Str) : (∃ vs, nameOf n = some vs ∧ vs.length = 1 ∧ ∀ i : Nat, vs[i]? = ((nameOf n).getD [Val.txt []])[i]?) ∨
      (nameOf n = none ∧ ((nameOf n).getD [Val.txt []])[0]? = some (.txt [])) := by
    unfold nameOf
    split
    · exact Or.inr ⟨rfl, rfl⟩
    · exact Or.inl ⟨_, rfl, rfl, fun _ => rfl⟩
  cases s
  case propName =>
    left
    refine ⟨[.txt e.name], ?_, rfl, fun i => ?_⟩
    · show some (if e.form = 15 then some [Val.txt e.name] else none) = _
      rw [if_pos (show e.form = 15 from hf)]
    · show _ = ((if e.form = 15 then some [Val.txt e.name] else none).getD _)[i]?
      rw [if_pos (show e.form = 15 from hf)]; rfl
  case figName =>
    rcases hn e with ⟨vs, h1, h2, h3⟩ | ⟨h1, h2⟩
    · exact Or.inl ⟨vs, congrArg some h1, h2, h3⟩
    · exact Or.inr ⟨congrArg some h1, trivial, h2⟩
  case colourName =>
    rcases hn e.cname with ⟨vs, h1, h2, h3⟩ | ⟨h1, h2⟩
    · exact Or.inl ⟨vs, congrArg some h1, h2, h3⟩
    · exact Or.inr ⟨congrArg some h1, trivial, h2⟩
  all_goals exact Or.inl ⟨_, rfl, rfl, fun _ => rfl⟩

/-- **C101_invalid_partial**: a handle that is not valid answers `false` to every call and stays so. Missing: the handle of a property
(`C101_property_undefined`). -/
theorem C101_invalid_partial {c : Cls} (hc : c ≠ .property) :
    (∀ s : Slot c, get none s = some none) ∧ (∀ k : SetCall c, set none k = some (none, false)) ∧
    ∀ ks : List (SetCall c), run none ks = some none := by
  have h2 : ∀ k : SetCall c, set none k = some (none, false) := fun k => if_neg hc
  refine ⟨fun s => if_neg hc, h2, fun ks => ?_⟩
  induction ks with
  | nil => rfl
  | cons k ks ih => rw [run, h2]; exact ih

/-- **C101_property_undefined**: asking the handle of a property for the name, or setting it, is undefined if the handle is not valid;
the other handles answer `false`. -/
theorem C101_property_undefined (n : Option Str) :
    get (c := .property) none .propName = none ∧ set (c := .property) none (.propName n) = none := ⟨rfl, rfl⟩

/-- **C101_generatrix_wrong**: setting the end of a generatrix stores the last of the three coordinates as the first and leaves the
other two as they were, whatever was done before; the answer is `true`. -/
theorem C101_generatrix_wrong (t : TabCyl) (x y z : ℚ) :
    ∃ t' : TabCyl, set (c := .extrusion) (some t) (.generatrixEnd x y z) = some (some t', true) ∧
      get (c := .extrusion) (some t') .generatrixEnd = some (some [.num z, .num t.LY, .num t.LZ]) := ⟨_, rfl, rfl⟩

/-- **C101_generatrix_never**: so the second and third coordinate of an extrusion cannot be set at all: they are those of the
beginning after any calls. -/
theorem C101_generatrix_never (t : TabCyl) (ks : List (SetCall .extrusion)) :
    ∃ t' : TabCyl, run (c := .extrusion) (some t) ks = some (some t') ∧ t'.LY = t.LY ∧ t'.LZ = t.LZ ∧ t'.DE = t.DE := by
  induction ks generalizing t with
  | nil => exact ⟨t, rfl, rfl, rfl, rfl⟩
  | cons k ks ih =>
    cases k with
    | generatrixEnd x y z => exact ih { t with LX := z }

/-- **C101_generatrix_flat**: on a new entity, whose end is the origin, the end can be moved along the x axis only; it is read
back as it was given exactly if it was given as the origin. -/
theorem C101_generatrix_flat (t : TabCyl) (h : t.LY = 0 ∧ t.LZ = 0) (x y z : ℚ) :
    shown (c := .extrusion) (setEnt (c := .extrusion) t (.generatrixEnd x y z)).1 (.generatrixEnd, 0) = some (.num x) ∧
    shown (c := .extrusion) (setEnt (c := .extrusion) t (.generatrixEnd x y z)).1 (.generatrixEnd, 1) = some (.num y) ∧
    shown (c := .extrusion) (setEnt (c := .extrusion) t (.generatrixEnd x y z)).1 (.generatrixEnd, 2) = some (.num z) ↔
    x = 0 ∧ y = 0 ∧ z = 0 := by
  show some (Val.num z) = some (Val.num x) ∧ some (Val.num t.LY) = some (Val.num y) ∧ some (Val.num t.LZ) = some (Val.num z) ↔ _
  rw [h.1, h.2]
  simp only [Option.some.injEq, Val.num.injEq]
  constructor
  · rintro ⟨h1, h2, h3⟩; exact ⟨by rw [← h1, ← h3], h2.symm, h3.symm⟩
  · rintro ⟨rfl, rfl, rfl⟩; exact ⟨rfl, rfl, rfl⟩

/-- **C101_height_ignored**: the height of a start or end point given as a point of space has no effect: it is that of the centre
(start point for a conic), and the answer is `true` all the same. -/
theorem C101_height_ignored (a : Arc) (k : Conic) (x y z : ℚ) :
    (∃ a' : Arc, set (c := .arc) (some a) (.arcStartPt x y z) = some (some a', true) ∧
      get (c := .arc) (some a') .arcStart = some (some [.num x, .num y, .num a.zOffset])) ∧
    (∃ a' : Arc, set (c := .arc) (some a) (.arcEndPt x y z) = some (some a', true) ∧
      get (c := .arc) (some a') .arcEnd = some (some [.num x, .num y, .num a.zOffset])) ∧
    (∃ k' : Conic, set (c := .conic) (some k) (.conicEndPt x y z) = some (some k', true) ∧
      get (c := .conic) (some k') .conicEnd = some (some [.num x, .num y, .num k.ZT])) :=
  ⟨⟨_, rfl, rfl⟩, ⟨_, rfl, rfl⟩, ⟨_, rfl, rfl⟩⟩

/-! Concrete cases. -/

/-- A new tabulated cylinder, entity122.cpp:39-51: the end (1,2,3) is read back as (3,0,0). -/
example : ∃ t' : TabCyl, set (c := .extrusion) (some ⟨0, 0, 0, 0⟩) (.generatrixEnd 1 2 3) = some (some t', true) ∧
    get (c := .extrusion) (some t') .generatrixEnd = some (some [.num 3, .num 0, .num 0]) := ⟨_, rfl, rfl⟩

/-- A colour: an accepted call, one out of range, and a name. -/
example : ∃ e' : Colour, run (c := .colour) (some ⟨0, 0, 0, []⟩) [.rgb 10 20 30, .rgb 10 20 101, .colourName (some ['a'])]
      = some (some e') ∧ e'.blue = 30 ∧ e'.cname = ['a'] := by
  refine ⟨⟨10, 20, 30, ['a']⟩, ?_, rfl, rfl⟩
  have h1 : setEnt (c := .colour) ⟨0, 0, 0, []⟩ (.rgb 10 20 30) = (⟨10, 20, 30, []⟩, true) :=
    set_rgb ⟨0, 0, 0, []⟩ (by refine ⟨⟨?_, ?_⟩, ⟨?_, ?_⟩, ?_, ?_⟩ <;> norm_num)
  have h2 : setEnt (c := .colour) ⟨10, 20, 30, []⟩ (.rgb 10 20 101) = (⟨10, 20, 30, []⟩, false) :=
    set_rgb_not ⟨10, 20, 30, []⟩ (by rintro ⟨_, _, _, h⟩; norm_num at h)
  show run (c := .colour) (some (setEnt (c := .colour) ⟨0, 0, 0, []⟩ (.rgb 10 20 30)).1) _ = _
  rw [h1]
  show run (c := .colour) (some (setEnt (c := .colour) ⟨10, 20, 30, []⟩ (.rgb 10 20 101)).1) _ = _
  rw [h2]
  rfl

/-- Hypotheses met: a property of form 15, an arc. -/
example : NameForm (c := .property) ⟨15, []⟩ ∧ NameForm (c := .arc) ⟨0, 0, 0, 0, 0, 0, 0⟩ ∧ Cls.arc ≠ Cls.extrusion :=
  ⟨rfl, trivial, by decide⟩

end Iges.Props.Accessors
