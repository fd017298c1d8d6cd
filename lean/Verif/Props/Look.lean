import Verif.Model.Look
import Verif.Model.IdfInstance
import Verif.Props.Directory
import Mathlib.Tactic.NormNum
/-!
C104: labels of entities; labels, names and colours in a converted assembly.
-/
namespace Iges.Props.Look

open Iges.Look

/-- **C104**.  The label that a handle reports after `SetLabel` is a beginning of the text given, all of it if it has at
most eight characters, and eight characters of it otherwise.  For an empty text there is no label. -/
theorem C104_label (t : Str) :
    (t = [] → getLabel (setLabel (some t)) = none)
      ∧ (t ≠ [] → ∃ s, getLabel (setLabel (some t)) = some s ∧ s <+: t ∧ s.length = min 8 t.length)
      ∧ (t ≠ [] → t.length ≤ 8 → getLabel (setLabel (some t)) = some t) := by
  refine ⟨fun h => by subst h; rfl, fun h => ?_, fun h hl => ?_⟩
  · have hne : (t.take 8) ≠ [] := by
      intro h0
      rcases List.take_eq_nil_iff.mp h0 with h1 | h1
      · cases h1
      · exact h h1
    exact ⟨t.take 8, by simp [getLabel, setLabel, hne], List.take_prefix 8 t, List.length_take⟩
  · simp only [setLabel, Option.getD_some, List.take_of_length_le hl]
    simp [getLabel, h]

example : getLabel (setLabel (some "U12".toList)) = some "U12".toList :=
  (C104_label "U12".toList).2.2 (by decide) (by decide)

example : getLabel (setLabel (some "CONNECTOR1".toList)) = some "CONNECTO".toList := by decide

/-- **C104**.  A null pointer takes the label away. -/
theorem C104_label_null : getLabel (setLabel none) = none := rfl

/-- **C104**.  An entity of any supported class whose label has been set, and whose directory entry is legal for the rest,
is written and read back with that label, if the text does not begin with a blank and holds no line break. -/
theorem C104_label_saved (t : Nat) (forms : List Int) (ht : (t, forms) ∈ Spec.formsOf) (d : DE) (p : DEPtrs)
    (grad : Int) (h : LegalDE { d with label := [] } p grad) (hlev : p.pLevel = none) (hd : d.entityType = t)
    (hf : d.form ∈ forms) (s : Str) (h1 : s.head? ≠ some ' ') (h2 : '\n' ∉ s) :
    ∃ l1 l2 rec r, writeDE { d with label := setLabel (some s) } p = some (l1 ++ ['\n'] ++ (l2 ++ ['\n']))
      ∧ ReadIGESRecord l1 = some rec ∧ readEntityDE t (some grad) rec (some l2) = some r
      ∧ getLabel r.label = getLabel (setLabel (some s)) ∧ r.label <+: s := by
  have hl : LegalDE { d with label := setLabel (some s) } p grad :=
    { type := h.type, pdata := h.pdata, ptrs := h.ptrs, font := h.font, level := h.level, color := h.color
      status := h.status, weight := h.weight, form := h.form, subscript := h.subscript, seq := h.seq
      label := by
        refine ⟨by simp [setLabel], ?_, ?_⟩
        · cases s with
          | nil => simp [setLabel]
          | cons c s => simpa [setLabel] using h1
        · intro hm
          exact h2 (List.mem_of_mem_take hm) }
  obtain ⟨l1, l2, rec, a1, a2, _, a3⟩ := C11_entity_forms t forms ht _ p grad hl hlev hd
  obtain ⟨r, b1, _, _, _, _, _, b2, _⟩ := a3 hf
  exact ⟨l1, l2, rec, r, a1, a2, b1, by rw [b2], by rw [b2]; exact List.take_prefix 8 s⟩

example : ∃ l1 l2 rec r, writeDE { sampleDE with label := setLabel (some "RESISTOR 7".toList) } samplePtrs
      = some (l1 ++ ['\n'] ++ (l2 ++ ['\n']))
    ∧ ReadIGESRecord l1 = some rec ∧ readEntityDE 100 (some 10) rec (some l2) = some r
    ∧ getLabel r.label = getLabel (setLabel (some "RESISTOR 7".toList)) ∧ r.label <+: "RESISTOR 7".toList := by
  refine C104_label_saved 100 [0] (by decide) sampleDE _ 10 ?_ rfl rfl (by decide) _ (by decide) (by decide)
  exact
    { type := by decide
      pdata := by decide
      ptrs := ⟨sample_ptrOk _ (.inl rfl), sample_ptrOk _ (.inl rfl), sample_ptrOk _ (.inl rfl),
        sample_ptrOk _ (.inr ⟨3, rfl, by decide⟩), sample_ptrOk _ (.inl rfl), sample_ptrOk _ (.inr ⟨5, rfl, by decide⟩)⟩
      font := by decide
      level := by decide
      color := by decide
      status := by decide
      weight := by decide
      form := by decide
      label := by decide
      subscript := by decide
      seq := by decide }

/-- **C104**, negation.  Blanks at the beginning of a label are lost in the file, for every label that has them. -/
theorem C104_label_blank {s : Str} (h : s.head? = some ' ') (hl : s.length ≤ 8) :
    (labelColumn (setLabel (some s))).dropWhile (· == ' ') ≠ setLabel (some s) := by
  intro he
  cases s with
  | nil => cases h
  | cons c s =>
    simp only [List.head?_cons, Option.some.injEq] at h
    subst h
    have hs : setLabel (some (' ' :: s)) = ' ' :: s := by
      simp only [setLabel, Option.getD_some]; exact List.take_of_length_le hl
    rw [hs] at he
    have hn : ∀ l : Str, (l.dropWhile (· == ' ')).head? ≠ some ' ' := by
      intro l
      induction l with
      | nil => simp
      | cons a l ih =>
        rw [List.dropWhile_cons]
        split
        · exact ih
        · rename_i ha
          intro h
          simp only [List.head?_cons, Option.some.injEq] at h
          exact ha (by simp [h])
    exact hn _ (by rw [he]; rfl)

/-- **C104** (partial).  In a converted assembly the instances of two components whose designators have at most eight
characters have the same label only if the designators are the same.

Missing: longer designators, for which it is false (`C104_instances_mixed`). -/
theorem C104_instances_partial {a b : Str} (ha : a.length ≤ 8) (hb : b.length ≤ 8)
    (h : instanceLabel a = instanceLabel b) : a = b := by
  simpa [instanceLabel, setLabel, List.take_of_length_le ha, List.take_of_length_le hb] using h

/-- **C104**, negation.  For every designator of eight or more characters there is another one whose instances have the
same label. -/
theorem C104_instances_mixed {a : Str} (ha : 8 ≤ a.length) : ∃ b, b ≠ a ∧ instanceLabel b = instanceLabel a := by
  refine ⟨a ++ ['1'], by simp, ?_⟩
  simp [instanceLabel, setLabel, List.take_append_of_le_length ha]

example : ∃ b, b ≠ "CAPACITOR".toList ∧ instanceLabel b = instanceLabel "CAPACITOR".toList :=
  C104_instances_mixed (by decide)

/-! ### Colours -/

private theorem dress_get {α : Type} : ∀ (l : List α) (k : ℕ) (i : ℕ),
    (dress (1 + k % 8) l)[i]? = (l[i]?).map fun b => (b, 1 + (k + i) % 8)
  | [], _, _ => by simp [dress]
  | b :: l, k, 0 => by simp [dress, nextColour]
  | b :: l, k, i + 1 => by
    have e : (nextColour (1 + k % 8)).2 = 1 + (k + 1) % 8 := by
      simp only [nextColour]
      split <;> omega
    simp only [dress, List.getElem?_cons_succ, e, dress_get l (k + 1) i]
    congr 1
    funext b
    congr 2
    omega

/-- **C104**.  Whatever the number of parts and other outlines, each body keeps its place and gets one of the nine colours
that were made; the board has the first one and no other body has it. -/
theorem C104_colour_defined {α : Type} (board : Option α) (bodies : List α) :
    (dressAll board bodies).map Prod.fst = board.toList ++ bodies
      ∧ (∀ q ∈ dressAll board bodies, q.2 < initColors.length)
      ∧ (∀ b, board = some b → (dressAll board bodies).head? = some (b, 0))
      ∧ ∀ (i : ℕ) (q : α × ℕ), (dress 1 bodies)[i]? = some q → q.2 ≠ 0 := by
  have hl : initColors.length = 9 := rfl
  have hg : ∀ (i : ℕ) (q : α × ℕ), (dress 1 bodies)[i]? = some q → 1 ≤ q.2 ∧ q.2 < 9 := by
    intro i q hq
    have := dress_get bodies 0 i
    simp only [Nat.zero_mod, Nat.add_zero, Nat.zero_add] at this
    rw [this] at hq
    obtain ⟨b, _, rfl⟩ := Option.map_eq_some_iff.mp hq
    simp only
    omega
  refine ⟨?_, ?_, ?_, ?_⟩
  · have : ∀ (l : List α) k, (dress k l).map Prod.fst = l := by
      intro l
      induction l with
      | nil => intro k; rfl
      | cons b l ih => intro k; simp [dress, ih]
    simp only [dressAll, List.map_append, List.map_map, this]
    congr 1
    cases board <;> simp
  · intro q hq
    rw [hl]
    rcases List.mem_append.mp hq with h | h
    · obtain ⟨b, _, rfl⟩ := List.mem_map.mp h
      norm_num
    · obtain ⟨i, hi, hq⟩ := List.getElem_of_mem h
      exact (hg i q (by rw [List.getElem?_eq_getElem hi, hq])).2
  · rintro b rfl
    rfl
  · intro i q hq
    have := hg i q hq
    omega

/-- **C104**.  Of any eight bodies made one after the other no two have the same colour, and the ninth has the colour of
the first. -/
theorem C104_colour_cycle {α : Type} {bodies : List α} {i j : ℕ} {a b : α × ℕ} (hi : (dress 1 bodies)[i]? = some a)
    (hj : (dress 1 bodies)[j]? = some b) (hij : i < j) :
    (j < i + 8 → a.2 ≠ b.2) ∧ (j = i + 8 → a.2 = b.2) := by
  have h1 := dress_get bodies 0 i
  have h2 := dress_get bodies 0 j
  simp only [Nat.zero_mod, Nat.add_zero, Nat.zero_add] at h1 h2
  rw [h1] at hi
  rw [h2] at hj
  obtain ⟨_, _, rfl⟩ := Option.map_eq_some_iff.mp hi
  obtain ⟨_, _, rfl⟩ := Option.map_eq_some_iff.mp hj
  simp only
  omega

example : dressAll (some "board") ["a", "b", "c", "d", "e", "f", "g", "h", "i"]
    = [("board", 0), ("a", 1), ("b", 2), ("c", 3), ("d", 4), ("e", 5), ("f", 6), ("g", 7), ("h", 8), ("i", 1)] := by
  decide

/-- **C104**.  The colour entities are as the table says, in per cent; they are nine, no two have the same values or the
same name. -/
theorem C104_colours :
    initColors.map (fun k => (k.1.red, k.1.green, k.1.blue))
        = cdef.map (fun c => ((c.1 : ℚ) * 100 / 255, (c.2.1 : ℚ) * 100 / 255, (c.2.2 : ℚ) * 100 / 255))
      ∧ initColors.map Prod.snd = cname ∧ initColors.length = 9
      ∧ (initColors.map fun k => (k.1.red, k.1.green, k.1.blue)).Nodup ∧ cname.Nodup
      ∧ ∀ k ∈ initColors, (0 ≤ k.1.red ∧ k.1.red ≤ 100) ∧ (0 ≤ k.1.green ∧ k.1.green ≤ 100)
          ∧ (0 ≤ k.1.blue ∧ k.1.blue ≤ 100) := by
  have hp : ∀ c ∈ cdef, paint newColour c
      = ⟨(c.1 : ℚ) * 100 / 255, (c.2.1 : ℚ) * 100 / 255, (c.2.2 : ℚ) * 100 / 255, []⟩ := by
    intro c hc
    simp only [cdef, List.mem_cons, List.not_mem_nil, or_false] at hc
    rcases hc with rfl | rfl | rfl | rfl | rfl | rfl | rfl | rfl | rfl <;>
      · simp only [paint, Handle.setEnt]
        rw [if_neg (by norm_num)]
        rfl
  have hm : cdef.map (paint newColour)
      = cdef.map fun c => (⟨(c.1 : ℚ) * 100 / 255, (c.2.1 : ℚ) * 100 / 255, (c.2.2 : ℚ) * 100 / 255, []⟩ : Colour) :=
    List.map_congr_left hp
  have h1 : initColors.map (fun k => (k.1.red, k.1.green, k.1.blue))
      = cdef.map (fun c => ((c.1 : ℚ) * 100 / 255, (c.2.1 : ℚ) * 100 / 255, (c.2.2 : ℚ) * 100 / 255)) := by
    unfold initColors
    rw [hm]
    rfl
  refine ⟨h1, rfl, rfl, ?_, by decide, ?_⟩
  · rw [h1]
    apply List.Nodup.map_on
    · intro a ha b hb hab
      simp only [Prod.mk.injEq] at hab
      obtain ⟨h1, h2, h3⟩ := hab
      have hq : ∀ x y : ℕ, (x : ℚ) * 100 / 255 = (y : ℚ) * 100 / 255 → x = y := by
        intro x y h
        have : (x : ℚ) = y := by linarith
        exact_mod_cast this
      exact Prod.ext (hq _ _ h1) (Prod.ext (hq _ _ h2) (hq _ _ h3))
    · decide
  · intro k hk
    have hk1 : k.1 ∈ cdef.map (paint newColour) := (List.of_mem_zip hk).1
    rw [hm] at hk1
    obtain ⟨c, hc, hck⟩ := List.mem_map.mp hk1
    rw [← hck]
    simp only [cdef, List.mem_cons, List.not_mem_nil, or_false] at hc
    rcases hc with rfl | rfl | rfl | rfl | rfl | rfl | rfl | rfl | rfl <;> norm_num

end Iges.Props.Look
