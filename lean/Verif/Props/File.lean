import Verif.Props.FileBody
import Verif.Props.Path
import Verif.Props.GlobalLines
/-
C14, C25, C26, C55: whole files.
-/
namespace Iges.Props
open Iges Iges.File

/-! ### The whole file, written and read -/

/-- An entity that can be written at position `i` and read, for a model with resolution `res` and largest line
weight `grad`. -/
structure LegalEnt (res : ℚ) (note : Bool) (grad : Int) (i : Nat) (e : Ent) : Prop where
  de : LegalDE (placed i 1 1 e) e.ptrs grad
  level : e.ptrs.pLevel = none
  form : FormOk e.body.etype e.attrs.form
  extras : ExtrasOk e.extras
  comments : e.comments = []
  body : BodyOk res note e.extras e.body

/-- The global data that is written: the file name is the name part of the path. -/
def named (g : Globals) (name : Str) : Globals := { g with fileName := name }

/-- A model that can be written to a path with file name `name` and read. -/
structure LegalModel (S : Sys) (name : Str) (m : Model) : Prop where
  start : ∀ l ∈ m.start, l.length = 72 ∧ '\n' ∉ l
  startLen : m.start.length ≤ 9999999
  globals : LegalGlobals S.ver S.now (named m.globals name)
  ne : m.ents ≠ []
  count : m.ents.length ≤ 4999998
  room : (m.ents.map entLines).sum ≤ 9999998
  ents : ∀ i e, m.ents[i]? = some e →
    LegalEnt m.globals.minResolution (m.globals.applicationNote != []) (grad16 m.globals) i e

/-- An entity as read for one that was written at position `i`. -/
structure EntKept (res : ℚ) (i : Nat) (e : Ent) (r : REnt) : Prop where
  de : ∃ first count, Spec.DeKept e.body.etype (storedDE (placed i first count e) e.ptrs) r.de
  body : BodyNear res e.body r.body
  extras : r.extras.Perm (e.extras.map (·.de))
  comments : r.comments = []

theorem plan_ready {E : PdEnv} {R : Ent → Body × List Int × List Str → Prop} {grad : Int} :
    ∀ (ents : List Ent) (dss : List (List Str)) (bs : List (Body × List Int × List Str)) (i : Nat) (index : Int),
      Planned E R i index ents dss bs → 1 ≤ index → index + (dss.flatten.length : Nat) ≤ 9999999 →
      (∀ j e, ents[j]? = some e → LegalDE (placed (i + j) 1 1 e) e.ptrs grad ∧ e.ptrs.pLevel = none ∧
        FormOk e.body.etype e.attrs.form) →
      (∀ x ∈ plan i index ents dss, ReadyDE grad x) ∧ (plan i index ents dss).length = ents.length ∧
      (∀ x xs, plan i index ents dss = x :: xs → x.1.seq = writeSeq i) := by
  intro ents
  induction ents with
  | nil => intro dss bs i index _ _ _ _; exact ⟨by simp [plan], rfl, by simp [plan]⟩
  | cons e es ih =>
    intro dss bs i index hp h1 hroom he
    cases dss with
    | nil => cases bs <;> exact hp.elim
    | cons ds dss =>
      cases bs with
      | nil => exact hp.elim
      | cons b bs =>
        obtain ⟨⟨hne, -, -, -⟩, hp⟩ := hp
        simp only [List.flatten_cons, List.length_append] at hroom
        obtain ⟨i1, i2, -⟩ := ih dss bs (i + 1) (index + ds.length) hp (by omega) (by push_cast at *; omega)
          (fun j e' h => by
            have := he (j + 1) e' (by simpa using h)
            rwa [show i + (j + 1) = i + 1 + j by omega] at this)
        obtain ⟨a, b, c⟩ := he 0 e rfl
        rw [Nat.add_zero] at a
        have hpos : 0 < ds.length := List.length_pos_iff.mpr hne
        refine ⟨?_, by simp [plan, i2], ?_⟩
        · intro x hx
          simp only [plan, List.mem_cons] at hx
          rcases hx with rfl | hx
          · refine ⟨⟨a.type, ?_, a.ptrs, a.font, a.level, a.color, a.status, a.weight, a.form, a.label, a.subscript, a.seq⟩,
              b, c⟩
            simp only [placed]
            push_cast at hroom
            omega
          · exact i1 x hx
        · intro x xs hx
          simp only [plan, List.cons.injEq] at hx
          rw [← hx.1]
          rfl

theorem pd_first {E : PdEnv} {R : Ent → Body × List Int × List Str → Prop} {e : Ent} {es : List Ent} {dss : List (List Str)}
    {bs : List (Body × List Int × List Str)} {i : Nat} {index : Int} (h : Planned E R i index (e :: es) dss bs) :
    ∃ d rest, pdLines i index dss = (d ++ Spec.pdTail (writeSeq i) index) :: rest ∧ d.length = 64 := by
  cases dss with
  | nil => cases bs <;> exact h.elim
  | cons ds dss =>
    cases bs with
    | nil => exact h.elim
    | cons b bs =>
      obtain ⟨⟨hne, hd, -, -⟩, -⟩ := h
      obtain ⟨d, ds', rfl⟩ := List.exists_cons_of_ne_nil hne
      exact ⟨d, _, rfl, (hd d (by simp)).1⟩

theorem plan_kept {E : PdEnv} {R : Ent → Body × List Int × List Str → Prop} :
    ∀ (ents : List Ent) (dss : List (List Str)) (bs : List (Body × List Int × List Str)) (i : Nat) (index : Int) (rs : List REnt),
      Planned E R i index ents dss bs →
      List.Forall₂ (fun x r => Spec.DeKept x.1.entityType (storedDE x.1 x.2.1) r.de) (plan i index ents dss) rs →
      ∀ j e r, ents[j]? = some e → rs[j]? = some r →
        ∃ first count, Spec.DeKept e.body.etype (storedDE (placed (i + j) first count e) e.ptrs) r.de := by
  intro ents
  induction ents with
  | nil => intro dss bs i index rs _ _ j e r h _; simp at h
  | cons e es ih =>
    intro dss bs i index rs hp hf j e' r' h1 h2
    cases dss with
    | nil => cases bs <;> exact hp.elim
    | cons ds dss =>
      cases bs with
      | nil => exact hp.elim
      | cons b bs =>
        obtain ⟨-, hp⟩ := hp
        cases hf with
        | @cons _ r _ rs hr hrs =>
          cases j with
          | zero =>
            simp only [List.getElem?_cons_zero, Option.some.injEq] at h1 h2
            subst h1 h2
            exact ⟨_, _, hr⟩
          | succ j =>
            rw [show i + (j + 1) = i + 1 + j by omega]
            exact ih dss bs (i + 1) _ rs hp hrs j e' r' (by simpa using h1) (by simpa using h2)

theorem lineList_col {tail : Int → Str} {c : Char} {n : Nat} (h : ∀ k, (tail k).head? = some c) (hnl : ∀ k, '\n' ∉ tail k) :
    ∀ (datas : List Str) (i : Int), (∀ d ∈ datas, d.length = n ∧ '\n' ∉ d) →
      ∀ l ∈ lineList tail i datas, '\n' ∉ l ∧ l[n]? = some c
  | [], _, _ => by simp [lineList]
  | d :: ds, i, hd => by
    intro l hl
    simp only [lineList, List.mem_cons] at hl
    rcases hl with rfl | hl
    · have := hd d (by simp)
      refine ⟨by rw [List.mem_append]; exact fun h => h.elim this.2 (hnl i), ?_⟩
      rw [List.getElem?_append_right (by omega), this.1, Nat.sub_self]
      have := h i
      rwa [List.head?_eq_getElem?] at this
    · exact lineList_col h hnl ds (i + 1) (fun d h => hd d (by simp [h])) l hl

theorem countLetter_all {c : Char} : ∀ ls : List Str, (∀ l ∈ ls, l[72]? = some c) → ∀ c',
    Spec.countLetter c' ls = if c' = c then ls.length else 0
  | [], _, c' => by simp [Spec.countLetter]
  | l :: ls, h, c' => by
    have ih := countLetter_all ls (fun x hx => h x (by simp [hx])) c'
    unfold Spec.countLetter at *
    rw [List.countP_cons, ih, h l (by simp)]
    by_cases hc : c' = c
    · simp [hc]
    · simp [hc, Ne.symm hc]

theorem countLetter_append (c : Char) (a b : List Str) :
    Spec.countLetter c (a ++ b) = Spec.countLetter c a + Spec.countLetter c b := by
  simp [Spec.countLetter]

theorem nameOf_parts {path base : Str} {ext : Option Str} (hparts : Spec.NameParts (SetPath (some path)).full base ext)
    (hne : path ≠ []) (hdot : '.' ∈ path ∨ base = []) :
    ∃ p, GetFileName (SetPath (some path)) = .ok (p, some (Spec.fileName base ext)) := by
  obtain ⟨p', hp⟩ := C48_queries_partial path base ext hparts hne hdot [.fileName]
  simp only [askAll, ask, List.map_cons, List.map_nil, answer] at hp
  cases h : GetFileName (SetPath (some path)) with
  | ok r =>
    rw [h] at hp
    simp only [Res.bind, Res.ok.injEq, Prod.mk.injEq, List.cons.injEq, and_true] at hp
    exact ⟨r.1, by rw [← hp.2]⟩
  | ub => rw [h] at hp; cases hp
  | exn => rw [h] at hp; cases hp

theorem normalise_fields (g : Globals) : (normalise g).pdelim = g.pdelim ∧ (normalise g).rdelim = g.rdelim ∧
    (normalise g).maxLinewidthGrad = g.maxLinewidthGrad := by
  unfold normalise
  dsimp only
  split_ifs <;> exact ⟨rfl, rfl, rfl⟩

/-- Whether `Write` can use the path: there is a file that can be overwritten (a file that cannot be read is
overwritten even if the caller did not ask for it), or none and one can be created. -/
def CanWrite (overwrite : Bool) (disk : Option OnDisk) (creatable : Bool) : Prop :=
  (∃ f, disk = some f ∧ f.writable = true ∧ (overwrite = true ∨ f.readable = false)) ∨ (disk = none ∧ creatable = true)

/-- The text of a legal model, its lines and its reading. -/
theorem file_roundtrip {S : Sys} (hS : SysOk S) {m : Model} {path base : Str} {ext : Option Str}
    (hparts : Spec.NameParts (SetPath (some path)).full base ext) (hpne : path ≠ []) (hdot : '.' ∈ path ∨ base = [])
    (h : LegalModel S (Spec.fileName base ext) m) :
    ∃ text front, 
      (∀ overwrite disk creatable, CanWrite overwrite disk creatable →
        Write S m (some path) overwrite disk creatable =
          .val (.done text (if m.start = [] then [pad72 defaultStart] else m.start)
            (prepGlobals (named m.globals (Spec.fileName base ext))))) ∧
      Spec.TextLines text (front ++ [Spec.terminateLine (Spec.countLetter 'S' front) (Spec.countLetter 'G' front)
        (Spec.countLetter 'D' front) (Spec.countLetter 'P' front)]) ∧
      (∀ l ∈ front, l[72]? = some 'S' ∨ l[72]? = some 'G' ∨ l[72]? = some 'D' ∨ l[72]? = some 'P') ∧
      Spec.countLetter 'D' front = 2 * m.ents.length ∧
      ∃ st r, readSections S cleared path text = .val st ∧
        st.start = (if m.start = [] then [pad72 defaultStart] else m.start) ∧
        Kept S.ver S.now (named m.globals (Spec.fileName base ext)) r ∧
        st.globals = (if m.globals.applicationNote = [] then r else normalise r) ∧
        st.ents.length = m.ents.length ∧
        ∀ i e r, m.ents[i]? = some e → st.ents[i]? = some r → EntKept m.globals.minResolution i e r := by
  obtain ⟨p, hname⟩ := nameOf_parts hparts hpne hdot
  generalize hnm : Spec.fileName base ext = name at *
  -- the start section
  obtain ⟨hdr, hhdr, hh72, hhne, hhlen, hws⟩ : ∃ hdr : List Str,
      (if m.start = [] then [pad72 defaultStart] else m.start) = hdr ∧ (∀ l ∈ hdr, l.length = 72 ∧ '\n' ∉ l) ∧ hdr ≠ [] ∧
      hdr.length ≤ 9999999 ∧ writeStart m.start = .ok (some (Spec.lines startTail 1 hdr, hdr)) := by
    by_cases h0 : m.start = []
    · refine ⟨_, if_pos h0, by decide +kernel, by simp, by simp, ?_⟩
      obtain ⟨t, t1, t2, -⟩ := C44_default_line
      rw [h0, t1, t2]
    · refine ⟨_, if_neg h0, h.start, h0, h.startLen, ?_⟩
      unfold writeStart
      rw [if_neg h0, normStart_72 _ fun l hl => (h.start l hl).1]
      simp only [Res.bind, startLines_eq m.start 1 (by omega) (by have := h.startLen; omega)]
      rfl
  -- the global section
  obtain ⟨gd, r, hwg, hg72, hgne, hglen, hrg, hkept⟩ := C47_globals_roundtrip_partial S.est S.num hS.est hS.num S.ver S.now
    (named m.globals name) h.globals
  have hnote : (named m.globals name).applicationNote = m.globals.applicationNote := rfl
  rw [hnote] at hrg
  generalize hg' : (if m.globals.applicationNote = [] then r else normalise r) = g' at *
  have hres8 : 1 / 10 ^ 8 ≤ m.globals.minResolution := h.globals.res.1
  have hgf : g'.pdelim = m.globals.pdelim ∧ g'.rdelim = m.globals.rdelim ∧ g'.maxLinewidthGrad = grad16 m.globals ∧
      (m.globals.applicationNote = [] → Spec.Near m.globals.minResolution m.globals.minResolution g'.minResolution) ∧
      g'.fileName = name := by
    have hfn : ∀ x : Globals, (normalise x).fileName = x.fileName := by
      intro x; unfold normalise; dsimp only; split_ifs <;> rfl
    have k1 := hkept.pdelim
    have k2 := hkept.rdelim
    have k3 := hkept.maxLinewidthGrad
    have k4 := hkept.minResolution
    have k5 := hkept.fileName
    by_cases hn : m.globals.applicationNote = []
    · rw [if_pos hn] at hg'; subst hg'
      exact ⟨k1, k2, k3, fun _ => k4, k5⟩
    · rw [if_neg hn] at hg'; subst hg'
      obtain ⟨n1, n2, n3⟩ := normalise_fields r
      exact ⟨n1.trans k1, n2.trans k2, n3.trans k3, fun h => absurd h hn, (hfn r).trans k5⟩
  obtain ⟨hgp, hgr, hgrad, hgres, hgname⟩ := hgf
  have hEnv : env S g' = { env S m.globals with res := g'.minResolution } := by
    unfold env; rw [hgp, hgr]
  have hEok : (env S m.globals).Ok := ⟨h.globals.delims.legalPd, h.globals.delims.legalRd, h.globals.delims.ne,
    lt_of_lt_of_le (by norm_num) hres8, hS.est, hS.num⟩
  -- the entities
  obtain ⟨dss, bs, hplan, hfmt, hsum⟩ := format_planned (W := env S m.globals) (E := env S g')
    (R := fun e q => BodyNear m.globals.minResolution e.body q.1 ∧ q.2.1.Perm (e.extras.map (·.de)) ∧ q.2.2 = [])
    (most := entLines) m.ents 0 1 (by omega) (by have := h.room; omega) (by
      intro j e hj
      have he := h.ents j e hj
      have hlt : j < m.ents.length := (List.getElem?_eq_some_iff.mp hj).1
      rw [hEnv, Nat.zero_add]
      refine body_cycle hS hEok ⟨rfl, rfl⟩ hres8 (note := m.globals.applicationNote != []) ?_ j e ?_ he.extras he.comments he.body
      · intro hn
        refine hgres ?_
        simpa using hn
      · have := h.count; omega)
  have hroomP : (1 : Int) + (dss.flatten.length : Nat) ≤ 9999999 := by have := h.room; omega
  have hlegal : ∀ j e, m.ents[j]? = some e → LegalDE (placed (0 + j) 1 1 e) e.ptrs (grad16 m.globals) ∧
      e.ptrs.pLevel = none ∧ FormOk e.body.etype e.attrs.form := by
    intro j e hj
    have he := h.ents j e hj
    rw [Nat.zero_add]
    exact ⟨he.de, he.level, he.form⟩
  obtain ⟨hready, hplen, hpseq⟩ := plan_ready m.ents dss bs 0 1 hplan (by omega) hroomP hlegal
  obtain ⟨dls, es, hwd, hdlen, hdls, hes, hrd⟩ := des_roundtrip (grad16 m.globals) _ hready
  obtain ⟨hwp, hpl, hpls⟩ := writePDs_plan m.ents dss bs 0 1 hplan (by omega) hroomP (by have := h.count; omega)
  have hDl : dls.length = 2 * m.ents.length := by rw [hdlen, hplen]
  have hcnt := h.count
  have hroom := h.room
  obtain ⟨tl, hwt, htl80, htlnl, htlshape, hrt⟩ := C14_terminate_roundtrip hdr.length gd.length (2 * m.ents.length)
    dss.flatten.length hhlen (by omega) (by omega) (by omega)
  generalize hxs : plan 0 1 m.ents dss = xs at *
  -- the text and its lines
  have hSl := lineList_col (tail := startTail) (c := 'S') (n := 72) (fun _ => rfl) startTail_no_nl hdr 1 hh72
  have hGl := lineList_col (tail := Spec.globalTail) (c := 'G') (n := 72) (fun _ => rfl)
    (fun k => by unfold Spec.globalTail; simp only [List.mem_cons, not_or]; exact ⟨by decide, rjust_no_nl 7 k⟩) gd 1 hg72
  generalize hpd : pdLines 0 1 dss = pds at *
  refine ⟨Spec.lines startTail 1 hdr ++ Spec.lines Spec.globalTail 1 gd ++ dls.flatMap (· ++ ['\n']) ++
    pds.flatMap (· ++ ['\n']) ++ (tl ++ ['\n']),
    lineList startTail 1 hdr ++ lineList Spec.globalTail 1 gd ++ dls ++ pds, ?_, ?_, ?_, ?_, ?_⟩
  · intro overwrite disk creatable hmay
    have hsec : writeOpened S m path xs (1 + (dss.flatten.length : Nat) - 1) =
        .val (.done (Spec.lines startTail 1 hdr ++ Spec.lines Spec.globalTail 1 gd ++ dls.flatMap (· ++ ['\n']) ++
          pds.flatMap (· ++ ['\n']) ++ (tl ++ ['\n'])) hdr (prepGlobals (named m.globals name))) := by
      unfold writeOpened
      rw [hname]
      simp only [Rd.lift, Option.getD_some]
      have : writeSections S m.start { m.globals with fileName := name } xs (1 + (dss.flatten.length : Nat) - 1) =
          .val (Spec.lines startTail 1 hdr ++ Spec.lines Spec.globalTail 1 gd ++ dls.flatMap (· ++ ['\n']) ++
            pds.flatMap (· ++ ['\n']) ++ (tl ++ ['\n']), hdr, prepGlobals (named m.globals name)) := by
        unfold writeSections
        have hwg' : writeGlobals S.est S.ver S.now { m.globals with fileName := name } = _ := hwg
        have hn1 : (1 + (dss.flatten.length : Nat) - 1 : Int) = (dss.flatten.length : Nat) := by omega
        rw [hws, hn1]
        simp only [Rd.lift, orFail, hwg', hwd, hwp, hplen, hwt, Rd.val_bind]
      rw [this]
    have hne : m.ents ≠ [] := h.ne
    unfold Write
    simp only [if_neg hne, hfmt, hhdr]
    rcases hmay with ⟨f, hf, hw, ho⟩ | ⟨hd, hc⟩
    · subst hf
      by_cases hr : f.readable = true
      · simp only [hr, Bool.true_eq_false, or_false] at ho
        simp only [opensBoth, hr, hw, Bool.and_self, if_true, ho]
        exact hsec
      · simp only [opensBoth, opensOut, hr, hw, Bool.false_and, if_true, Bool.false_eq_true, if_false]
        exact hsec
    · subst hd
      simp only [opensBoth, opensOut, hc, if_true, Bool.false_eq_true, if_false]
      exact hsec
  · -- the lines of the text, and the counts
    have hcS := countLetter_all _ fun l hl => (hSl l hl).2
    have hcG := countLetter_all _ fun l hl => (hGl l hl).2
    have hcD := countLetter_all dls fun l hl => (hdls l hl).2.2
    have hcP := countLetter_all pds fun l hl => (hpls l hl).2.2
    have e : Spec.terminateLine
        (Spec.countLetter 'S' (lineList startTail 1 hdr ++ lineList Spec.globalTail 1 gd ++ dls ++ pds))
        (Spec.countLetter 'G' (lineList startTail 1 hdr ++ lineList Spec.globalTail 1 gd ++ dls ++ pds))
        (Spec.countLetter 'D' (lineList startTail 1 hdr ++ lineList Spec.globalTail 1 gd ++ dls ++ pds))
        (Spec.countLetter 'P' (lineList startTail 1 hdr ++ lineList Spec.globalTail 1 gd ++ dls ++ pds)) = tl := by
      simp only [countLetter_append, hcS, hcG, hcD, hcP, lineList_length, hDl, hpl]
      rw [htlshape]
      simp [Spec.terminateLine]
    rw [e]
    refine ⟨?_, ?_⟩
    · simp only [lines_flat, List.flatMap_append, List.flatMap_cons, List.flatMap_nil, List.append_nil, List.append_assoc]
    · intro l hl
      simp only [List.mem_append, List.mem_singleton] at hl
      rcases hl with (((hl | hl) | hl) | hl) | rfl
      · exact (hSl l hl).1
      · exact (hGl l hl).1
      · exact (hdls l hl).2.1
      · exact (hpls l hl).2.1
      · exact htlnl
  · intro l hl
    simp only [List.mem_append] at hl
    rcases hl with ((hl | hl) | hl) | hl
    · exact .inl (hSl l hl).2
    · exact .inr (.inl (hGl l hl).2)
    · exact .inr (.inr (.inl (hdls l hl).2.2))
    · exact .inr (.inr (.inr (hpls l hl).2.2))
  · simp only [countLetter_append, countLetter_all _ (fun l hl => (hSl l hl).2), countLetter_all _ (fun l hl => (hGl l hl).2),
      countLetter_all dls (fun l hl => (hdls l hl).2.2), countLetter_all pds (fun l hl => (hpls l hl).2.2), hDl]
    simp
  · -- reading
    obtain ⟨x, xs', rfl⟩ : ∃ x xs', xs = x :: xs' := List.exists_cons_of_ne_nil (by
      rintro rfl
      simp only [List.length_nil] at hplen
      exact h.ne (List.eq_nil_of_length_eq_zero hplen.symm))
    obtain ⟨d1, d2, dls', drec, rfl, hd1, hd2, hd3, hd4⟩ := hrd x xs' rfl
    obtain ⟨prec, p1, pds', rfl, hp1, hp2⟩ : ∃ prec p1 pds', pds = p1 :: pds' ∧ ReadIGESRecord p1 = some prec ∧
        prec.section_type = 'P' := by
      obtain ⟨e, es', hes'⟩ := List.exists_cons_of_ne_nil h.ne
      rw [hes'] at hplan
      obtain ⟨d, rest, hd, hl⟩ := pd_first hplan
      obtain ⟨-, rec, h2, h3, h4⟩ := C04_pd_line_readable (writeSeq 0) 1 d hl (by decide) (by omega) (by omega)
      exact ⟨rec, _, rest, by rw [← hpd, hd], h2, h3⟩
    have hlines : getlines [] (Spec.lines startTail 1 hdr ++ Spec.lines Spec.globalTail 1 gd ++
        (d1 :: d2 :: dls').flatMap (· ++ ['\n']) ++ (p1 :: pds').flatMap (· ++ ['\n']) ++ (tl ++ ['\n'])) =
        lineList startTail 1 hdr ++ (lineList Spec.globalTail 1 gd ++ ((d1 :: d2 :: dls') ++ ((p1 :: pds') ++
          getlines [] (tl ++ ['\n'])))) := by
      simp only [lines_flat, List.append_assoc]
      rw [getlines_flat _ _ fun l hl => (hSl l hl).1, getlines_flat _ _ fun l hl => (hGl l hl).1,
        getlines_flat _ _ fun l hl => (hdls l hl).2.1, getlines_flat _ _ fun l hl => (hpls l hl).2.1]
    obtain ⟨s1, ss, rfl⟩ := List.exists_cons_of_ne_nil hhne
    obtain ⟨g1, gs, rfl⟩ := List.exists_cons_of_ne_nil hgne
    have q1 : nextRecord (lineList startTail 1 (s1 :: ss) ++ (lineList Spec.globalTail 1 (g1 :: gs) ++
        ((d1 :: d2 :: dls') ++ ((p1 :: pds') ++ getlines [] (tl ++ ['\n']))))) = some (⟨s1, 'S', 1⟩,
        lineList startTail 2 ss ++ (lineList Spec.globalTail 1 (g1 :: gs) ++
        ((d1 :: d2 :: dls') ++ ((p1 :: pds') ++ getlines [] (tl ++ ['\n']))))) := by
      simp only [lineList, List.cons_append, nextRecord]
      rw [readStartLine s1 1 (hh72 s1 (by simp)).1 (by omega) (by omega)]
      rfl
    simp only [List.length_cons] at hhlen hglen
    have gread : ∀ (d : Str) (i : Int), d.length = 72 → 1 ≤ i → i ≤ 9999999 →
        ReadIGESRecord (d ++ Spec.globalTail i) = some ⟨d, 'G', i⟩ := by
      intro d i h1 h2 h3
      exact (C08_global_line_readable i d h1 h2 h3).2
    have q2 := gatherSection_lines 'S' startTail 0 readStartLine ⟨g1, 'G', 1⟩ (by simp) (g1 ++ Spec.globalTail 1)
      (gread g1 1 (hg72 g1 (by simp)).1 (by omega) (by omega))
      (lineList Spec.globalTail 2 gs ++ ((d1 :: d2 :: dls') ++ ((p1 :: pds') ++ getlines [] (tl ++ ['\n'])))) s1 ss
      (fun d hd => (hh72 d (by simp [hd])).1) (by omega)
    have q3 := gatherSection_lines 'G' Spec.globalTail 0 gread drec (by rw [hd2]; decide) d1 hd1
      (d2 :: dls' ++ ((p1 :: pds') ++ getlines [] (tl ++ ['\n']))) g1 gs (fun d hd => (hg72 d (by simp [hd])).1) (by omega)
    have q4 := hd4 p1 prec (pds' ++ getlines [] (tl ++ ['\n'])) hp1 (by rw [hp2]; decide)
    have hnlp : ∀ l ∈ pdLines 0 1 dss, '\n' ∉ l := by rw [hpd]; exact fun l hl => (hpls l hl).2.1
    obtain ⟨rs, q5, q6, q7⟩ := readPDs_plan (tl ++ ['\n']) m.ents dss bs 0 1 es hplan hnlp (by rw [hxs]; exact hes)
    rw [hpd] at q5
    have q8 : getlines [] (tl ++ ['\n']) = tl :: getlines [] [] := by
      rw [show tl ++ ['\n'] = tl ++ '\n' :: [] from rfl, getlines_line [] tl [] htlnl]
      rfl
    refine ⟨⟨s1 :: ss, gs.length + 1, g', rs⟩, r, ?_, hhdr.symm, hkept, hg'.symm, ?_, ?_⟩
    · unfold readSections
      rw [hlines, q1]
      simp only [orFail, Rd.val_bind, cleared, List.length_nil, List.nil_append]
      have q2' : gatherSection 'S' 0 ⟨s1, 'S', 1⟩ (lineList startTail 2 ss ++ (lineList Spec.globalTail 1 (g1 :: gs) ++
          ((d1 :: d2 :: dls') ++ ((p1 :: pds') ++ getlines [] (tl ++ ['\n']))))) = _ := q2
      have q3' : gatherSection 'G' 0 ⟨g1, 'G', 1⟩ (lineList Spec.globalTail 2 gs ++ ((d1 :: d2 :: dls') ++ ((p1 :: pds') ++
          getlines [] (tl ++ ['\n'])))) = _ := q3
      have hidx : drec.index = 1 := by rw [hd3, hpseq x xs' rfl]; rfl
      have hnm' : nameOf path = .val name := by unfold nameOf; rw [hname]; rfl
      have hfn : { g' with fileName := name } = g' := by rw [← hgname]
      have q4' : readDEs g'.maxLinewidthGrad drec (d2 :: dls' ++ (p1 :: pds' ++ getlines [] (tl ++ ['\n']))) =
          some (es, prec.section_type, p1 :: (pds' ++ getlines [] (tl ++ ['\n']))) := by
        rw [hgrad]; exact q4
      rw [q2']
      simp only [orFail, Rd.val_bind, Rd.need_true]
      rw [q3']
      simp only [orFail, Rd.val_bind, hrg, hnm', hfn, hd2, hidx, Rd.need_true]
      rw [q4']
      simp only [orFail, Rd.val_bind, hp2, Rd.need_true]
      rw [← List.cons_append, q5]
      simp only [q8, List.head?_cons, hrt, Rd.val_bind]
      simp
    · exact (List.Forall₂.length_eq q6).symm
    · intro i e r he hr
      have := plan_kept m.ents dss bs 0 1 rs hplan q7 i e r he hr
      rw [Nat.zero_add] at this
      have h6 := List.forall₂_iff_get.mp q6
      obtain ⟨hi1, hi2⟩ := List.getElem?_eq_some_iff.mp he
      obtain ⟨hj1, hj2⟩ := List.getElem?_eq_some_iff.mp hr
      have := h6.2 i hi1 hj1
      simp only [List.get_eq_getElem, hi2, hj2] at this
      exact ⟨‹_›, this.1, this.2.1, this.2.2⟩

/-- **C55** — A legal model that is written to a path that can be written to is read back from the text of the
file: start lines (a default line if there were none), global data (`Kept`; normalised if there is an application
note, C19) and the entities in their order, each with its directory attributes (`Spec.DeKept`), class data
(`BodyNear`) and optional pointers.  Missing: the linking of the entities by their numbers and what follows it are
parameters; boolean trees, loops and some other entities are not legal here because their round trip fails
(C30, C31, C43). -/
theorem C55_whole_file_partial (S : Sys) (hS : SysOk S) (m : Model) (path base : Str) (ext : Option Str)
    (hparts : Spec.NameParts (SetPath (some path)).full base ext) (hpne : path ≠ []) (hdot : '.' ∈ path ∨ base = [])
    (h : LegalModel S (Spec.fileName base ext) m) (overwrite : Bool) (disk : Option OnDisk) (creatable : Bool)
    (hw : CanWrite overwrite disk creatable) :
    ∃ text start g st r, Write S m (some path) overwrite disk creatable = .val (.done text start g) ∧
      (∀ assoc finish, assoc st.ents = some true →
        Read S assoc finish cleared (some path) (some text) = .val (true, finish st)) ∧
      st.start = (if m.start = [] then [pad72 defaultStart] else m.start) ∧
      Kept S.ver S.now (named m.globals (Spec.fileName base ext)) r ∧
      st.globals = (if m.globals.applicationNote = [] then r else normalise r) ∧
      st.ents.length = m.ents.length ∧
      ∀ i e r, m.ents[i]? = some e → st.ents[i]? = some r → EntKept m.globals.minResolution i e r := by
  obtain ⟨text, front, h1, -, -, -, st, r, h2, h3⟩ := file_roundtrip hS hparts hpne hdot h
  refine ⟨text, _, _, st, r, h1 overwrite disk creatable hw, ?_, h3⟩
  intro assoc finish ha
  unfold Read
  simp only [cleared] at h2 ⊢
  simp [h2, ha]

/-- **C14** — In the text written for a legal model every line but the last belongs to the start, global,
directory or parameter section, the last line is the terminate line stating the numbers of lines of these four
sections, and there are two directory lines for each entity.  The reader decodes the same numbers from this line
(`C14_terminate_roundtrip`).  Missing: models that are not legal, e.g. with boolean trees. -/
theorem C14_file_counts_partial (S : Sys) (hS : SysOk S) (m : Model) (path base : Str) (ext : Option Str)
    (hparts : Spec.NameParts (SetPath (some path)).full base ext) (hpne : path ≠ []) (hdot : '.' ∈ path ∨ base = [])
    (h : LegalModel S (Spec.fileName base ext) m) (overwrite : Bool) (disk : Option OnDisk) (creatable : Bool)
    (hw : CanWrite overwrite disk creatable) :
    ∃ text start g front, Write S m (some path) overwrite disk creatable = .val (.done text start g) ∧
      Spec.TextLines text (front ++ [Spec.terminateLine (Spec.countLetter 'S' front) (Spec.countLetter 'G' front)
        (Spec.countLetter 'D' front) (Spec.countLetter 'P' front)]) ∧
      (∀ l ∈ front, l[72]? = some 'S' ∨ l[72]? = some 'G' ∨ l[72]? = some 'D' ∨ l[72]? = some 'P') ∧
      Spec.countLetter 'D' front = 2 * m.ents.length := by
  obtain ⟨text, front, h1, h2, h3, h4, -⟩ := file_roundtrip hS hparts hpne hdot h
  exact ⟨text, _, _, front, h1 overwrite disk creatable hw, h2, h3, h4⟩

/-! ### Reading: failures -/

/-- **C25** — A read into a model that holds entities is refused and changes nothing. -/
theorem C25_refuses_nonempty (S : Sys) (assoc : List REnt → Option Bool) (finish : State → State) (m : State)
    (path file : Option Str) (h : m.ents ≠ []) : Read S assoc finish m path file = .val (false, m) := by
  unfold Read
  cases path with
  | none => rfl
  | some p => simp [h]

/-- **C25** — A read that fails before entities are linked leaves a model without entities.  Missing: a failure
while linking (`C25_failed_link_keeps_entities`). -/
theorem C25_failed_empty_partial (S : Sys) (assoc : List REnt → Option Bool) (finish : State → State) (m m' : State)
    (path file : Option Str) (hm : m.ents = []) (hassoc : ∀ es, assoc es ≠ some false)
    (h : Read S assoc finish m path file = .val (false, m')) : m'.ents = [] := by
  unfold Read at h
  cases path with
  | none => simp only [Rd.val.injEq, Prod.mk.injEq, true_and] at h; rw [← h]; exact hm
  | some p =>
    simp only [hm, ne_eq, not_true_eq_false, if_false] at h
    cases file with
    | none => simp only [Rd.val.injEq, Prod.mk.injEq, true_and] at h; rw [← h]; exact hm
    | some text =>
      simp only at h
      cases hs : readSections S m p text with
      | fail => rw [hs] at h; simp only [Rd.val.injEq, Prod.mk.injEq, true_and] at h; rw [← h]; rfl
      | ub => rw [hs] at h; cases h
      | exn => rw [hs] at h; cases h
      | val st =>
        rw [hs] at h
        simp only at h
        cases ha : assoc st.ents with
        | none => rw [ha] at h; cases h
        | some b =>
          cases b with
          | false => exact absurd ha (hassoc _)
          | true => rw [ha] at h; simp at h

/-- C25 fails in general: for every legal model there is a file such that, if its entities cannot be linked, the
read returns `false` and the model holds as many entities as the file. -/
theorem C25_failed_link_keeps_entities (S : Sys) (hS : SysOk S) (m : Model) (path base : Str) (ext : Option Str)
    (hparts : Spec.NameParts (SetPath (some path)).full base ext) (hpne : path ≠ []) (hdot : '.' ∈ path ∨ base = [])
    (h : LegalModel S (Spec.fileName base ext) m) (assoc : List REnt → Option Bool) (finish : State → State)
    (hassoc : ∀ es, assoc es = some false) :
    ∃ text st, Read S assoc finish cleared (some path) (some text) = .val (false, st) ∧
      st.ents.length = m.ents.length ∧ st.ents ≠ [] := by
  obtain ⟨text, front, -, -, -, -, st, r, h2, -, -, -, h3, -⟩ := file_roundtrip hS hparts hpne hdot h
  refine ⟨text, st, ?_, h3, ?_⟩
  · unfold Read
    simp only [cleared] at h2 ⊢
    simp [h2, hassoc]
  · intro h0
    rw [h0] at h3
    exact h.ne (List.eq_nil_of_length_eq_zero h3.symm)

/-- Start text in a model makes it unable to read a file whose lines are numbered from 1: the line numbers are
compared with the number of start lines the model already has. -/
theorem C25_start_text_blocks (S : Sys) (assoc : List REnt → Option Bool) (finish : State → State) (m : State)
    (path text l : Str) (ls : List Str) (rec : Record) (hm : m.ents = []) (hs : m.start ≠ [])
    (hl : getlines [] text = l :: ls) (hr : ReadIGESRecord l = some rec) (h1 : rec.index = 1) :
    Read S assoc finish m (some path) (some text) = .val (false, cleared) := by
  have hlen : m.start.length ≠ 0 := by simpa using hs
  have hf : readSections S m path text = .fail := by
    unfold readSections
    simp only [hl, nextRecord, hr, Option.map_some, orFail, Rd.val_bind]
    by_cases hS : rec.section_type = 'S'
    · rw [Rd.need_true hS]
      have : gatherSection 'S' m.start.length rec ls = none := by
        cases ls with
        | nil => simp [gatherSection, hS]
        | cons a b =>
          rw [gatherSection, if_neg (by simp [hS]), if_pos]
          rw [h1]; omega
      simp only [Rd.val_bind, this]
      rfl
    · rw [Rd.need_false hS]; rfl
  unfold Read
  simp [hm, hf]

/-! ### Writing: the file on disk -/

/-- **C26** — Without permission to overwrite, a file that can be read stays as it is; so does a file that cannot be
written to.  `refused` means that `Write` returned `false` before touching the path.  Missing: a file that can be
written to but not read (`C26_write_only_overwritten`). -/
theorem C26_existing_kept_partial (S : Sys) (m : Model) (path : Option Str) (overwrite : Bool) (f : OnDisk)
    (creatable : Bool) (out : WriteOut) (hf : (overwrite = false ∧ f.readable = true) ∨ f.writable = false)
    (h : Write S m path overwrite (some f) creatable = .val out) : out = .refused := by
  unfold Write at h
  cases path with
  | none => cases h; rfl
  | some p =>
    simp only at h
    split at h
    · cases h; rfl
    · split at h
      · cases h; rfl
      · cases h
      · cases h
      · rcases hf with ⟨ho, hr⟩ | hw
        · by_cases hw : f.writable = true
          · simp only [opensBoth, hr, hw, ho, Bool.and_self, if_true, Bool.false_eq_true, if_false] at h
            cases h; rfl
          · simp only [opensBoth, opensOut, hw, Bool.and_false, Bool.false_eq_true, if_false] at h
            cases h; rfl
        · simp only [opensBoth, opensOut, hw, Bool.and_false, Bool.false_eq_true, if_false] at h
          cases h; rfl

/-- C26 fails for a file that can be written to but not read: it is replaced although overwriting was not allowed. -/
theorem C26_write_only_overwritten (S : Sys) (hS : SysOk S) (m : Model) (path base : Str) (ext : Option Str)
    (hparts : Spec.NameParts (SetPath (some path)).full base ext) (hpne : path ≠ []) (hdot : '.' ∈ path ∨ base = [])
    (h : LegalModel S (Spec.fileName base ext) m) (old : Str) (creatable : Bool) :
    ∃ text start g, Write S m (some path) false (some ⟨old, false, true⟩) creatable = .val (.done text start g) := by
  obtain ⟨text, front, h1, -⟩ := file_roundtrip hS hparts hpne hdot h
  exact ⟨text, _, _, h1 false _ creatable (.inl ⟨_, rfl, rfl, .inr rfl⟩)⟩

/-- **C26** — A model without entities is never written, whatever is on disk and whatever was asked for. -/
theorem C26_empty_model_not_written (S : Sys) (m : Model) (path : Option Str) (overwrite : Bool) (disk : Option OnDisk)
    (creatable : Bool) (h : m.ents = []) : Write S m path overwrite disk creatable = .val .refused := by
  unfold Write
  cases path with
  | none => rfl
  | some p => simp [h]

/-- An entity that cannot be formatted stops `Write` before the path is touched. -/
theorem C26_unformattable_untouched (S : Sys) (m : Model) (path : Option Str) (overwrite : Bool) (disk : Option OnDisk)
    (creatable : Bool) (h : formatAll (env S m.globals) 0 1 m.ents = .fail) :
    Write S m path overwrite disk creatable = .val .refused := by
  unfold Write
  cases path with
  | none => rfl
  | some p => simp [h]

/-- A path without a dot: the file is truncated (or created) and then an exception leaves `Write`. -/
theorem C26_no_dot_throws (S : Sys) (m : Model) (path : Str) (overwrite : Bool) (disk : Option OnDisk)
    (creatable : Bool) (hne : path ≠ []) (hdot : '.' ∉ path) (h1 : path.getLast? ≠ some '/') (h2 : path.getLast? ≠ some '\\')
    (hw : CanWrite overwrite disk creatable) (hm : m.ents ≠ [])
    (x : List (DE × DEPtrs × Str) × Int) (hx : formatAll (env S m.globals) 0 1 m.ents = .val x) :
    Write S m (some path) overwrite disk creatable = .exn := by
  obtain ⟨-, hn, -⟩ := C48_no_dot_throws path hne hdot h1 h2
  have hsec : ∀ xs n, writeOpened S m path xs n = .exn := by
    intro xs n
    unfold writeOpened
    rw [hn]
    rfl
  unfold Write
  simp only [if_neg hm, hx]
  rcases hw with ⟨f, hf, hw, ho⟩ | ⟨hd, hc⟩
  · subst hf
    by_cases hr : f.readable = true
    · simp only [hr, Bool.true_eq_false, or_false] at ho
      simp only [opensBoth, hr, hw, Bool.and_self, if_true, ho, hsec]
    · simp only [opensBoth, opensOut, hr, hw, Bool.false_and, if_true, Bool.false_eq_true, if_false, hsec]
  · subst hd
    simp only [opensBoth, opensOut, hc, if_true, Bool.false_eq_true, if_false, hsec]

end Iges.Props
