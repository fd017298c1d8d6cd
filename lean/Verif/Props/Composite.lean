import Verif.Spec.Composite
import Verif.Props.Geom
import Mathlib.Data.List.Forall2

/-!
C34: composite curves.
-/

namespace Iges.Props.Composite
open Iges Iges.Composite Iges.Spec Iges.Spec.Composite

theorem connected_nil (tol : ℝ) : Connected tol [] := by intro i a b h; simp at h

theorem Connected.tail {tol : ℝ} {s : Seg} {cs : List Seg} (h : Connected tol (s :: cs)) : Connected tol cs :=
  fun i a b ha hb => h (i + 1) a b (by simpa using ha) (by simpa using hb)

theorem Connected.take {tol : ℝ} {cs : List Seg} (h : Connected tol cs) (k : Nat) : Connected tol (cs.take k) := by
  intro i a b ha hb
  rw [List.getElem?_take] at ha hb
  split at ha
  · split at hb
    · exact h i a b ha hb
    · cases hb
  · cases ha

theorem Connected.append {tol : ℝ} {cs : List Seg} {s : Seg} (h : Connected tol cs)
    (hs : cs = [] ∨ ∃ p q, GetEndPoint cs = some p ∧ s.start = some q ∧ dist2 p q ≤ tol ^ 2) :
    Connected tol (cs ++ [s]) := by
  intro i a b ha hb
  by_cases hi : i + 1 < cs.length
  · rw [List.getElem?_append_left (by omega)] at ha hb
    exact h i a b ha hb
  · have hi' : i + 1 = cs.length := by
      have := (List.getElem?_eq_some_iff.1 hb).1
      simp at this
      omega
    rw [hi'] at hb
    simp at hb
    subst hb
    rw [List.getElem?_append_left (by omega)] at ha
    rcases hs with hs | ⟨p, q, hp, hq, hd⟩
    · subst hs; simp at hi'
    · refine ⟨p, q, ?_, hq, hd⟩
      have : cs.getLast? = some a := by rw [List.getLast?_eq_getElem?, ← ha]; congr 1; omega
      simpa [GetEndPoint, this] using hp

/-- Destroying a segment does not open a gap: what is left of a connected curve is connected. -/
theorem C34_destroy (tol : ℝ) (cs : List Seg) (d : Nat) (h : Connected tol cs) : Connected tol (unlink cs d) := by
  unfold unlink
  split
  · exact h
  · rename_i i hi
    split
    · exact connected_nil tol
    · rename_i hn
      have hlt : i < cs.length := (List.findIdx?_eq_some_iff_getElem.1 hi).1
      by_cases h0 : i = 0
      · subst h0
        cases cs with
        | nil => exact h
        | cons s cs => exact Connected.tail h
      · have hl : i = cs.length - 1 := by
          by_contra hc
          exact hn ⟨h0, hc⟩
        have : cs.eraseIdx i = cs.take i := by
          rw [List.eraseIdx_eq_take_drop_succ, List.drop_eq_nil_of_le (by omega), List.append_nil]
        rw [this]
        exact Connected.take h i

theorem step_connected {res tol : ℝ} {cs : List Seg} {c : Call} (h : Connected tol cs) (hc : Careful tol cs c) :
    Connected tol (step res cs c) := by
  cases c with
  | add s r =>
    simp only [step, AddSegment]
    split
    · exact h
    split
    · exact h
    split
    · exact h
    split
    · exact h
    · exact Connected.append h hc
  | destroyed d => exact C34_destroy tol cs d h

/-- C34 for callers that compare the start of each new segment with the end point of the curve: after
every sequence of additions and destructions the curve is connected.  What is missing: the library
does not make the comparison itself (`C34_fails_gap`). -/
theorem C34_careful_partial (res tol : ℝ) : ∀ (l : List Call) (cs : List Seg), Connected tol cs →
    CarefulFrom res tol cs l → Connected tol (runFrom res cs l)
  | [], _, h, _ => h
  | _ :: l, _, h, hc => C34_careful_partial res tol l _ (step_connected h hc.1) hc.2

/-- A curve that is closed accepts no further segment. -/
theorem C34_closed_refuses (res : ℝ) (cs : List Seg) (s : Seg) (r : Bool) (h : IsClosed res cs = true) :
    AddSegment res cs s r = (cs, false) := by
  have hne : cs ≠ [] := by rintro rfl; simp [Composite.IsClosed] at h
  unfold AddSegment
  split
  · rfl
  · rw [if_pos ⟨hne, h⟩]

/-- A curve made by additions does not run on after it has been closed: none of its proper initial
parts is closed. -/
theorem C34_not_past_closing (res : ℝ) : ∀ (l : List (Seg × Bool)) (cs : List Seg),
    (∀ k, 0 < k → k < cs.length → IsClosed res (cs.take k) = false) →
    ∀ k, 0 < k → k < (runFrom res cs (l.map fun p => .add p.1 p.2)).length →
      IsClosed res ((runFrom res cs (l.map fun p => .add p.1 p.2)).take k) = false
  | [], _, h => h
  | (s, r) :: l, cs, h => by
    refine C34_not_past_closing res l _ ?_
    simp only [step, AddSegment]
    split
    · exact h
    split
    · exact h
    split
    · exact h
    split
    · exact h
    · rename_i hcl _ _
      intro k hk hlt
      simp only at hlt ⊢
      simp only [List.length_append, List.length_singleton] at hlt
      rw [List.take_append_of_le_length (by omega)]
      by_cases hk' : k < cs.length
      · exact h k hk hk'
      · rw [List.take_of_length_le (by omega)]
        have hne : cs ≠ [] := by rintro rfl; simp at hlt; omega
        simpa [hne] using hcl

/-- A straight segment along the first axis. -/
def line (id : Nat) (x y : ℝ) : Seg := ⟨id, 110, some ⟨x, 0, 0⟩, some ⟨y, 0, 0⟩, 1⟩

theorem line_alone (res : ℝ) (id : Nat) (x y : ℝ) : IsClosed res [line id x y] = false := by
  simp [Composite.IsClosed, line]

theorem add_second (res : ℝ) (x y u v : ℝ) :
    AddSegment res [line 1 x y] (line 2 u v) false = ([line 1 x y, line 2 u v], true) := by
  unfold AddSegment
  rw [line_alone]
  simp [line]

theorem add_first (res : ℝ) (x y : ℝ) : AddSegment res [] (line 1 x y) false = ([line 1 x y], true) := by
  simp [AddSegment, line]

/-- C34 is false: a segment that starts anywhere is accepted. -/
theorem C34_fails_gap (res gap : ℝ) (hg : 0 < gap) :
    ∃ cs, (AddSegment res [] (line 1 0 1) false).2 = true
      ∧ AddSegment res (AddSegment res [] (line 1 0 1) false).1 (line 2 (1 + gap) (2 + gap)) false = (cs, true)
      ∧ cs.length = 2 ∧ ∀ tol, 0 ≤ tol → tol < gap → ¬ Connected tol cs := by
  refine ⟨[line 1 0 1, line 2 (1 + gap) (2 + gap)], by rw [add_first], by rw [add_first]; exact add_second .., rfl, ?_⟩
  intro tol h0 ht hc
  obtain ⟨p, q, hp, hq, hd⟩ := hc 0 _ _ rfl rfl
  simp only [line, Option.some.injEq] at hp hq
  subst hp; subst hq
  simp only [dist2] at hd
  nlinarith

example : CarefulFrom 0.001 0 [] [.add (line 1 0 1) false, .add (line 2 1 5) false, .destroyed 1]
    ∧ runFrom 0.001 [] [.add (line 1 0 1) false, .add (line 2 1 5) false, .destroyed 1] = [line 2 1 5] := by
  have h2 : unlink [line 1 0 1, line 2 1 5] 1 = [line 2 1 5] := by
    simp [unlink, line, List.findIdx?_cons]
  refine ⟨⟨.inl rfl, .inr ?_, trivial, trivial⟩, ?_⟩
  · simp only [step, add_first]
    exact ⟨_, _, rfl, rfl, by simp [dist2]⟩
  · simp only [runFrom, step, add_first, add_second, h2]

example : IsClosed 0.001 [line 1 0 1, line 2 1 0] = true := by
  simp [Composite.IsClosed, line, C51_reflexive]

/-! ### Reading -/

theorem checks_mono (n : Nat) : ∀ (l : List Seg) (ok : Bool) (prev : Option Seg),
    checks n ok prev l = true → ok = true
  | [], _, _, h => h
  | s :: l, ok, prev, h => by
    have := checks_mono n l _ _ h
    cases ok with
    | true => rfl
    | false => cases prev <;> simp at this

/-- What reading does check: allowed types; no two consecutive points of one kind unless the file
lists exactly two segments; not a single point; known end points where segments meet. -/
theorem C34_read_partial (n : Nat) (cs : List Seg) (h : readOk n cs = true) :
    (∀ s ∈ cs, s.etype ∈ [100, 104, 106, 110, 112, 116, 126, 132])
      ∧ (∀ i a b, cs[i]? = some a → cs[i + 1]? = some b →
          (∃ p q, a.stop = some p ∧ b.start = some q)
            ∧ (a.etype = b.etype → (a.etype = 116 ∨ a.etype = 132) → n = 2))
      ∧ ∀ s, cs = [s] → s.etype ≠ 116 ∧ s.etype ≠ 132 := by
  have key : ∀ (l : List Seg) (prev : Option Seg), checks n true prev l = true →
      (∀ s ∈ l, s.etype ∈ [100, 104, 106, 110, 112, 116, 126, 132])
      ∧ ∀ i a b, (prev.toList ++ l)[i]? = some a → (prev.toList ++ l)[i + 1]? = some b →
          (∃ p q, a.stop = some p ∧ b.start = some q)
            ∧ (a.etype = b.etype → (a.etype = 116 ∨ a.etype = 132) → n = 2) := by
    intro l
    induction l with
    | nil =>
      intro prev _
      refine ⟨by simp, ?_⟩
      intro i a b ha hb
      have := (List.getElem?_eq_some_iff.1 hb).1
      cases prev <;> simp at this
    | cons s l ih =>
      intro prev h
      have h1 := checks_mono n l _ _ h
      have ht : typeOK s.etype = true := by
        by_contra hc
        cases prev <;> simp [hc] at h1
      have h2 : checks n true (some s) l = true := by
        have aux : ∀ b, b = true → checks n b (some s) l = true → checks n true (some s) l = true := by
          rintro _ rfl h; exact h
        exact aux _ h1 h
      obtain ⟨i1, i2⟩ := ih (some s) h2
      refine ⟨?_, ?_⟩
      · intro t ht'
        rcases List.mem_cons.1 ht' with rfl | ht'
        · simp only [typeOK, Bool.or_eq_true, decide_eq_true_eq] at ht
          simp only [List.mem_cons, List.not_mem_nil, or_false]
          tauto
        · exact i1 t ht'
      · intro i a b ha hb
        cases prev with
        | none => exact i2 i a b (by simpa using ha) (by simpa using hb)
        | some p =>
          cases i with
          | succ i => exact i2 i a b (by simpa using ha) (by simpa using hb)
          | zero =>
            simp at ha hb
            subst ha; subst hb
            simp only [ht, if_true] at h1
            split at h1
            · rename_i hs
              obtain ⟨hq, hp⟩ := hs
              obtain ⟨q, hq⟩ := Option.isSome_iff_exists.1 hq
              obtain ⟨p', hp⟩ := Option.isSome_iff_exists.1 hp
              refine ⟨⟨p', q, hp, hq⟩, fun e1 e2 => ?_⟩
              by_contra hn
              rw [if_pos ⟨by rw [← e1]; exact e2, e1, hn⟩] at h1
              cases h1
            · cases h1
  have hc : checks n true none cs = true := by
    unfold readOk at h
    split at h
    · split at h
      · cases h
      · exact h
    · exact h
  obtain ⟨k1, k2⟩ := key cs none hc
  refine ⟨k1, fun i a b ha hb => k2 i a b (by simpa using ha) (by simpa using hb), ?_⟩
  rintro s rfl
  simp only [readOk] at h
  split at h
  · cases h
  · rename_i hn
    exact not_or.1 hn

example : readOk 3 [line 1 0 1, line 2 1 5, line 3 5 6] = true := by decide

/-- C34 is false of reading too: where the segments are makes no difference to what is accepted. -/
theorem C34_fails_read (n : Nat) (cs ds : List Seg)
    (h : List.Forall₂ (fun a b => a.etype = b.etype ∧ a.start.isSome = b.start.isSome ∧ a.stop.isSome = b.stop.isSome) cs ds) :
    readOk n cs = readOk n ds := by
  have key : ∀ (cs ds : List Seg), List.Forall₂ (fun a b => a.etype = b.etype ∧ a.start.isSome = b.start.isSome
      ∧ a.stop.isSome = b.stop.isSome) cs ds → ∀ (p q : Option Seg) (ok : Bool),
      (Option.map (fun s : Seg => (s.etype, s.stop.isSome)) p = Option.map (fun s : Seg => (s.etype, s.stop.isSome)) q) →
      checks n ok p cs = checks n ok q ds := by
    intro cs ds h
    induction h with
    | nil => intro p q ok _; rfl
    | cons hab _ ih =>
      rename_i a b l1 l2 _
      intro p q ok hpq
      obtain ⟨e1, e2, e3⟩ := hab
      simp only [checks]
      cases p with
      | none =>
        cases q with
        | none => rw [e1]; exact ih _ _ _ (by simp [e1, e3])
        | some q => cases hpq
      | some p =>
        cases q with
        | none => cases hpq
        | some q =>
          simp only [Option.map_some, Option.some.injEq, Prod.mk.injEq] at hpq
          simp only [e1, e2, hpq.1, hpq.2]
          exact ih _ _ _ (by simp [e1, e3])
  have hk := key cs ds h none none true rfl
  unfold readOk
  cases h with
  | nil => rfl
  | cons hab hl =>
    cases hl with
    | nil => simp only [hab.1, hk]
    | cons _ _ => exact hk

example := C34_fails_read 2 [line 1 0 1, line 2 1 2] [line 1 0 1, line 2 50 60]
  (.cons ⟨rfl, rfl, rfl⟩ (.cons ⟨rfl, rfl, rfl⟩ .nil))

end Iges.Props.Composite
