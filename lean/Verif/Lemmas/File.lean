import Verif.Model.File
import Verif.Spec.File
import Verif.Spec.FileDE
import Verif.Props.Directory
import Verif.Props.Header
import Verif.Props.Globals
import Verif.Props.Params
import Verif.Lemmas.EntityBody
/-
The sections of a whole file, written and read.
-/
namespace Iges.File

open Iges.Props

/-- The directory data that `Write` gives an entity at position `i` whose `count` parameter lines start at
`index`. -/
def placed (i : Nat) (index count : Int) (e : Ent) : DE :=
  { e.attrs with seq := writeSeq i, entityType := e.body.etype, parameterData := index, paramLineCount := count }

/-- The form number of the entity is one the standard gives to its type. -/
def FormOk (t form : Int) : Prop := t = 124 ∨ ∃ forms, (t.toNat, forms) ∈ Spec.formsOf ∧ (t.toNat : Int) = t ∧ form ∈ forms

theorem fix_kept {t : Int} {s : DE} (h : FormOk t s.form) : ∃ r, fixDE t.toNat s = some r ∧ Spec.DeKept t s r := by
  rcases h with rfl | ⟨forms, hf, ht, hm⟩
  · refine ⟨_, by simp only [show (124 : Int).toNat = 124 from rfl, fixDE]; rw [if_neg (by omega)], ?_⟩
    constructor <;> simp
  · generalize t.toNat = n at *
    subst ht
    simp only [Spec.formsOf, List.mem_cons, Prod.mk.injEq, List.not_mem_nil, or_false] at hf
    rcases hf with ⟨rfl, rfl⟩ | ⟨rfl, rfl⟩ | ⟨rfl, rfl⟩ | ⟨rfl, rfl⟩ | ⟨rfl, rfl⟩ | ⟨rfl, rfl⟩ | ⟨rfl, rfl⟩ |
      ⟨rfl, rfl⟩ | ⟨rfl, rfl⟩ | ⟨rfl, rfl⟩ | ⟨rfl, rfl⟩ | ⟨rfl, rfl⟩ | ⟨rfl, rfl⟩ | ⟨rfl, rfl⟩ | ⟨rfl, rfl⟩ |
      ⟨rfl, rfl⟩ | ⟨rfl, rfl⟩ | ⟨rfl, rfl⟩ | ⟨rfl, rfl⟩ | ⟨rfl, rfl⟩ | ⟨rfl, rfl⟩ | ⟨rfl, rfl⟩ | ⟨rfl, rfl⟩
    all_goals
      simp only [List.mem_cons, List.not_mem_nil, or_false] at hm
      simp only [fixDE]
      rw [if_neg (by omega)]
      refine ⟨_, rfl, ?_⟩
      constructor <;> simp

theorem formOk_supported {t form : Int} (h : FormOk t form) : supported t = true ∧ (t.toNat : Int) = t := by
  rcases h with rfl | ⟨forms, hf, ht, hm⟩
  · decide
  · refine ⟨?_, ht⟩
    generalize t.toNat = n at *
    subst ht
    simp only [Spec.formsOf, List.mem_cons, Prod.mk.injEq, List.not_mem_nil, or_false] at hf
    rcases hf with ⟨rfl, rfl⟩ | ⟨rfl, rfl⟩ | ⟨rfl, rfl⟩ | ⟨rfl, rfl⟩ | ⟨rfl, rfl⟩ | ⟨rfl, rfl⟩ | ⟨rfl, rfl⟩ |
      ⟨rfl, rfl⟩ | ⟨rfl, rfl⟩ | ⟨rfl, rfl⟩ | ⟨rfl, rfl⟩ | ⟨rfl, rfl⟩ | ⟨rfl, rfl⟩ | ⟨rfl, rfl⟩ | ⟨rfl, rfl⟩ |
      ⟨rfl, rfl⟩ | ⟨rfl, rfl⟩ | ⟨rfl, rfl⟩ | ⟨rfl, rfl⟩ | ⟨rfl, rfl⟩ | ⟨rfl, rfl⟩ | ⟨rfl, rfl⟩ | ⟨rfl, rfl⟩
    all_goals decide

/-- A directory entry that is written and can be read. -/
structure ReadyDE (grad : Int) (x : DE × DEPtrs × Str) : Prop where
  legal : LegalDE x.1 x.2.1 grad
  level : x.2.1.pLevel = none
  form : FormOk x.1.entityType x.1.form

/-- The entry as read. -/
def EntryKept (x : DE × DEPtrs × Str) (e : Int × DE) : Prop :=
  e.1 = x.1.entityType ∧ Spec.DeKept x.1.entityType (storedDE x.1 x.2.1) e.2

/-- The directory section: two lines for each entity, and the reader's loop over them. -/
theorem des_roundtrip (grad : Int) : ∀ xs : List (DE × DEPtrs × Str), (∀ x ∈ xs, ReadyDE grad x) →
    ∃ ls es, writeDEs xs = some (ls.flatMap (· ++ ['\n'])) ∧ ls.length = 2 * xs.length ∧
      (∀ l ∈ ls, l.length = 80 ∧ '\n' ∉ l ∧ l[72]? = some 'D') ∧ List.Forall₂ EntryKept xs es ∧
      (∀ x xs', xs = x :: xs' → ∃ a b ls' rec, ls = a :: b :: ls' ∧ ReadIGESRecord a = some rec ∧
        rec.section_type = 'D' ∧ rec.index = x.1.seq ∧
        ∀ next r more, ReadIGESRecord next = some r → r.section_type ≠ 'D' →
          readDEs grad rec (b :: ls' ++ next :: more) = some (es, r.section_type, next :: more)) := by
  intro xs
  induction xs with
  | nil =>
    intro _
    exact ⟨[], [], rfl, rfl, by simp, .nil, by simp⟩
  | cons x xs ih =>
    intro h
    obtain ⟨ls, es, w, hlen, hls, hes, hread⟩ := ih fun y hy => h y (by simp [hy])
    have hx := h x (by simp)
    obtain ⟨l1, l2, rec, a1, a2, a3, a4, a5, a6, a7, a8, a9, _, a11, a12, a13⟩ := readDE_written hx.legal
      (by intro s hs; rw [hx.level] at hs; cases hs)
    obtain ⟨r, hr1, hr2⟩ := fix_kept (t := x.1.entityType) (s := storedDE x.1 x.2.1) hx.form
    obtain ⟨hsup, hnat⟩ := formOk_supported hx.form
    have hrd : readEntityDE x.1.entityType.toNat (some grad) rec (some l2) = some r := by
      unfold readEntityDE
      rw [hnat, a9 hx.level, Option.bind_some, hr1]
    refine ⟨l1 :: l2 :: ls, (x.1.entityType, r) :: es, ?_, ?_, ?_, .cons ⟨rfl, hr2⟩ hes, ?_⟩
    · simp only [writeDEs, a1, w, Option.bind_eq_bind, Option.bind_some, List.flatMap_cons, List.append_assoc]
    · simp [hlen]; omega
    · intro l hl
      simp only [List.mem_cons] at hl
      rcases hl with rfl | rfl | hl
      · exact ⟨a2, a4, a12⟩
      · exact ⟨a3, a5, a13⟩
      · exact hls l hl
    · intro x' xs' he
      cases he
      refine ⟨l1, l2, ls, rec, rfl, a6, a7, a8, ?_⟩
      intro next rn more hn hnd
      cases xs with
      | nil =>
        have : ls = [] := List.eq_nil_of_length_eq_zero (by simpa using hlen)
        subst this
        cases hes
        simp only [List.cons_append, List.nil_append, readDEs, a11, hsup, hrd, hn, Option.bind_eq_bind,
          Option.bind_some, if_true]
        rw [if_pos hnd]
      | cons y ys =>
        obtain ⟨a, b, ls', rec', rfl, b1, b2, b3, b4⟩ := hread y ys rfl
        have := b4 next rn more hn hnd
        simp only [List.cons_append, readDEs, a11, hsup, hrd, b1, Option.bind_eq_bind,
          Option.bind_some, if_true]
        rw [if_neg (by simp [b2])]
        simp only [List.cons_append] at this
        rw [this]
        rfl

/-! ### Parameter data -/

/-- What `Write` holds after formatting: `dss` are the data lines of the entities. -/
def plan : Nat → Int → List Ent → List (List Str) → List (DE × DEPtrs × Str)
  | i, index, e :: es, ds :: dss =>
    (placed i index ds.length e, e.ptrs, Spec.lines (Spec.pdTail (writeSeq i)) index ds) ::
      plan (i + 1) (index + ds.length) es dss
  | _, _, _, _ => []

/-- The lines of the parameter section. -/
def pdLines : Nat → Int → List (List Str) → List Str
  | _, _, [] => []
  | i, index, ds :: dss => lineList (Spec.pdTail (writeSeq i)) index ds ++ pdLines (i + 1) (index + ds.length) dss

/-- The data lines of each entity are proper lines, and `readPD` makes of them a value satisfying `R`. -/
def Planned (E : PdEnv) (R : Ent → Body × List Int × List Str → Prop) :
    Nat → Int → List Ent → List (List Str) → List (Body × List Int × List Str) → Prop
  | i, index, e :: es, ds :: dss, b :: bs =>
    (ds ≠ [] ∧ (∀ d ∈ ds, d.length = 64 ∧ '\n' ∉ d) ∧ R e b ∧
      ∀ more, readBody E e.body.etype (writeSeq i) index ds.length
        (lineList (Spec.pdTail (writeSeq i)) index ds ++ getlines [] more) = .val b) ∧
    Planned E R (i + 1) (index + ds.length) es dss bs
  | _, _, [], [], [] => True
  | _, _, _, _, _ => False

/-- An entity at position `i` that is written with `W` and read with `E`, in at most `most` lines. -/
def Cycle (W E : PdEnv) (i : Nat) (e : Ent) (most : Nat) (R : Body × List Int × List Str → Prop) : Prop :=
  ∀ index : Int, 1 ≤ index → index + most ≤ 9999999 →
    Spec.PdCycle most (writeSeq i) index (e.body.format W (writeSeq i) e.extras e.comments index)
      (readBody E e.body.etype (writeSeq i)) R

theorem format_planned {W E : PdEnv} {R : Ent → Body × List Int × List Str → Prop} {most : Ent → Nat} :
    ∀ (ents : List Ent) (i : Nat) (index : Int), 1 ≤ index → index + ((ents.map most).sum : Nat) ≤ 9999999 →
      (∀ j e, ents[j]? = some e → Cycle W E (i + j) e (most e) (R e)) →
      ∃ dss bs, Planned E R i index ents dss bs ∧
        formatAll W i index ents = .val (plan i index ents dss, index + (dss.flatten.length : Nat)) ∧
        dss.flatten.length ≤ (ents.map most).sum := by
  intro ents
  induction ents with
  | nil =>
    intro i index _ _ _
    exact ⟨[], [], trivial, by simp [formatAll, plan], by simp⟩
  | cons e es ih =>
    intro i index h1 hroom hc
    simp only [List.map_cons, List.sum_cons] at hroom
    obtain ⟨ds, hne, hm, hd, hf, b, hb, hr⟩ := hc 0 e rfl index h1 (by omega)
    rw [Nat.add_zero] at hf hr
    obtain ⟨dss, bs, hp, hf', hl⟩ := ih (i + 1) (index + ds.length) (by omega) (by omega)
      (fun j e' he' => by
        have := hc (j + 1) e' (by simpa using he')
        rwa [show i + (j + 1) = i + 1 + j by omega] at this)
    refine ⟨ds :: dss, b :: bs, ⟨⟨hne, hd, hb, fun more => ?_⟩, hp⟩, ?_, ?_⟩
    · rw [← hr more, getlines_lines _ _ _ _ (fun k => pdTail_no_nl _ k) (fun d h => (hd d h).2)]
    · simp only [formatAll, hf, hf', Rd.val_bind, plan, placed, List.flatten_cons, List.length_append]
      have e1 : index + (ds.length : Int) - index = ds.length := by omega
      have e2 : index + (ds.length : Int) + (dss.flatten.length : Int) =
          index + ((ds.length + dss.flatten.length : Nat) : Int) := by push_cast; ring
      rw [e1, e2]
    · simp only [List.flatten_cons, List.length_append, List.map_cons, List.sum_cons]
      omega

theorem lines_flat (tail : Int → Str) : ∀ (datas : List Str) (i : Int),
    Spec.lines tail i datas = (lineList tail i datas).flatMap (· ++ ['\n'])
  | [], _ => rfl
  | d :: ds, i => by
    simp only [Spec.lines, lineList, List.flatMap_cons, lines_flat tail ds (i + 1)]
    simp

theorem lineList_length (tail : Int → Str) : ∀ (datas : List Str) (i : Int), (lineList tail i datas).length = datas.length
  | [], _ => rfl
  | d :: ds, i => by simp [lineList, lineList_length tail ds (i + 1)]

theorem lines_length81 {de : Int} (hde : 1 ≤ de ∧ de ≤ 9999999) : ∀ (datas : List Str) (i : Int), 1 ≤ i →
    i + (datas.length : Nat) ≤ 10000000 → (∀ d ∈ datas, d.length = 64) →
    (Spec.lines (Spec.pdTail de) i datas).length = 81 * datas.length
  | [], _, _, _, _ => rfl
  | d :: ds, i, h1, h2, h => by
    have := lines_length81 hde ds (i + 1) (by omega) (by simp only [List.length_cons] at h2; push_cast at *; omega)
      (fun d hd => h d (by simp [hd]))
    simp only [List.length_cons] at h2
    simp only [Spec.lines, List.length_append, List.length_cons, this, h d (by simp),
      pdTail_length de i ⟨by omega, by omega⟩ ⟨by omega, by push_cast at h2; omega⟩]
    omega

/-- The parameter section as written, and its lines. -/
theorem writePDs_plan {E : PdEnv} {R : Ent → Body × List Int × List Str → Prop} :
    ∀ (ents : List Ent) (dss : List (List Str)) (bs : List (Body × List Int × List Str)) (i : Nat) (index : Int),
      Planned E R i index ents dss bs → 1 ≤ index → index + (dss.flatten.length : Nat) ≤ 9999999 →
      2 * (i + ents.length) ≤ 9999999 →
      writePDs (plan i index ents dss) = some ((pdLines i index dss).flatMap (· ++ ['\n'])) ∧
      (pdLines i index dss).length = dss.flatten.length ∧
      (∀ l ∈ pdLines i index dss, l.length = 80 ∧ '\n' ∉ l ∧ l[72]? = some 'P') := by
  intro ents
  induction ents with
  | nil =>
    intro dss bs i index hp _ _ _
    cases dss with
    | nil => exact ⟨rfl, rfl, by simp [pdLines]⟩
    | cons _ _ => cases bs <;> exact hp.elim
  | cons e es ih =>
    intro dss bs i index hp h1 hroom hi
    cases dss with
    | nil => cases bs <;> exact hp.elim
    | cons ds dss =>
      cases bs with
      | nil => exact hp.elim
      | cons b bs =>
        obtain ⟨⟨hne, hd, hx1, hx2⟩, hp⟩ := hp
        simp only [List.flatten_cons, List.length_append, List.length_cons] at hroom hi
        obtain ⟨w, hl, hls⟩ := ih dss bs (i + 1) (index + ds.length) hp (by omega) (by push_cast at *; omega) (by omega)
        have hde : 1 ≤ writeSeq i ∧ writeSeq i ≤ 9999999 := by unfold writeSeq; omega
        have h81 := lines_length81 hde ds index h1 (by push_cast at *; omega) fun d h => (hd d h).1
        have hpos : 0 < ds.length := List.length_pos_iff.mpr hne
        refine ⟨?_, ?_, ?_⟩
        · simp only [plan, writePDs]
          rw [if_neg (by
            rintro (h | h)
            · rw [h] at h81; simp only [List.length_nil] at h81; omega
            · omega), w, lines_flat]
          simp [pdLines]
        · simp [pdLines, lineList_length, hl]
        · intro l hl'
          simp only [pdLines, List.mem_append] at hl'
          rcases hl' with hl' | hl'
          · clear w hl hls ih hp hpos h81 hne hx1 hx2
            induction ds generalizing index with
            | nil => simp [lineList] at hl'
            | cons d ds ih2 =>
              simp only [List.length_cons] at hroom
              simp only [lineList, List.mem_cons] at hl'
              rcases hl' with rfl | hl'
              · have hd0 := hd d (by simp)
                have hr := C04_pd_line_readable (writeSeq i) index d hd0.1 ⟨by omega, by omega⟩ h1 (by push_cast at hroom; omega)
                refine ⟨hr.1, ?_, ?_⟩
                · rw [List.mem_append]; rintro (h | h)
                  · exact hd0.2 h
                  · exact pdTail_no_nl _ _ h
                · have h8 := rjust_length 8 (writeSeq i) (intStr_length_le (writeSeq i) (by omega) (by omega))
                  rw [List.getElem?_append_right (by omega), hd0.1, Spec.pdTail,
                    List.getElem?_append_right (by omega), h8]
                  rfl
              · exact ih2 (index + 1) (by omega) (fun d h => hd d (by simp [h])) (by push_cast at *; omega) hl'
          · exact hls l hl'

theorem getlines_flat (r : Str) : ∀ ls : List Str, (∀ l ∈ ls, '\n' ∉ l) →
    getlines [] (ls.flatMap (· ++ ['\n']) ++ r) = ls ++ getlines [] r
  | [], _ => rfl
  | l :: ls, h => by
    rw [List.flatMap_cons, List.append_assoc, List.append_assoc, List.singleton_append,
      getlines_line [] l _ (h l (by simp)), getlines_flat r ls fun x hx => h x (by simp [hx])]
    rfl

/-- The reader's loop over the parameter section. -/
theorem readPDs_plan {E : PdEnv} {R : Ent → Body × List Int × List Str → Prop} (tail : Str) :
    ∀ (ents : List Ent) (dss : List (List Str)) (bs : List (Body × List Int × List Str)) (i : Nat) (index : Int)
      (es : List (Int × DE)),
      Planned E R i index ents dss bs → (∀ l ∈ pdLines i index dss, '\n' ∉ l) →
      List.Forall₂ EntryKept (plan i index ents dss) es →
      ∃ rs, readPDs E es (pdLines i index dss ++ getlines [] tail) = .val (rs, getlines [] tail) ∧
        List.Forall₂ (fun e r => R e (r.body, r.extras, r.comments)) ents rs ∧
        List.Forall₂ (fun x r => Spec.DeKept x.1.entityType (storedDE x.1 x.2.1) r.de) (plan i index ents dss) rs := by
  intro ents
  induction ents with
  | nil =>
    intro dss bs i index es hp hn he
    cases dss with
    | nil => cases he; exact ⟨[], rfl, .nil, .nil⟩
    | cons _ _ => cases bs <;> exact hp.elim
  | cons e ents ih =>
    intro dss bs i index es hp hn he
    cases dss with
    | nil => cases bs <;> exact hp.elim
    | cons ds dss =>
      cases bs with
      | nil => exact hp.elim
      | cons b bs =>
        obtain ⟨⟨hne, hd, hR, hread⟩, hp⟩ := hp
        cases he with
        | @cons _ y _ ys hy hys =>
          obtain ⟨hy1, hy2⟩ := hy
          obtain ⟨rs, h1, h2, h3⟩ := ih dss bs (i + 1) (index + ds.length) ys hp
            (fun l hl => hn l (by simp [pdLines, hl])) hys
          obtain ⟨t, d⟩ := y
          simp only at hy1 hy2
          have t1 : t = e.body.etype := hy1
          have t2 : d.seq = writeSeq i := hy2.seq
          have t3 : d.parameterData = index := hy2.pdata
          have t4 : d.paramLineCount = ds.length := hy2.count
          have hmore : getlines [] ((pdLines (i + 1) (index + ds.length) dss).flatMap (· ++ ['\n']) ++ tail) =
              pdLines (i + 1) (index + ds.length) dss ++ getlines [] tail :=
            getlines_flat _ _ fun l hl => hn l (by simp [pdLines, hl])
          have hb := hread ((pdLines (i + 1) (index + ds.length) dss).flatMap (· ++ ['\n']) ++ tail)
          rw [hmore] at hb
          refine ⟨⟨d, b.1, b.2.1, b.2.2⟩ :: rs, ?_, .cons hR h2, .cons hy2 h3⟩
          simp only [readPDs, pdLines, t1, t2, t3, t4, List.append_assoc, hb, Rd.val_bind, Int.toNat_natCast]
          rw [List.drop_left' (lineList_length _ _ _), h1]
          rfl

end Iges.File
