import Verif.Spec.IdfSetters
import Verif.Props.IdfSections
/-
C100: setters of outline sections, part names and numbers of a board.
-/
namespace Iges.Props.IdfSetters
open Iges Iges.Idf Iges.Idf.Spec Iges.Props.IdfSections Iges.Props.IdfOutline

/-- **C100_other_system**: no sequence of the setters changes a section that belongs to the other kind of system; every call is
refused. -/
theorem C100_other_system (cad : Cad) (k : OlnKind) (s : OlnSect) (h : OthersSection cad s) (cs : List SectCall) :
    (sectRun cad k s cs).1 = s ∧ ∀ b ∈ (sectRun cad k s cs).2, b = false := by
  have h0 : ownerAllows cad s.owner = false := by
    rcases h with ⟨h1, h2⟩ | ⟨h1, h2⟩ <;> rw [h1, h2] <;> rfl
  have h1 : ∀ c, sectCall cad k s c = (s, false) := fun c => by unfold sectCall; rw [if_pos h0]
  induction cs with
  | nil => exact ⟨rfl, by simp [sectRun]⟩
  | cons c cs ih =>
    simp only [sectRun, h1]
    exact ⟨ih.1, by simpa using ih.2⟩

/-- The owner and the system itself may change it. -/
theorem allows_own {cad : Cad} {s : OlnSect} (h : ¬ OthersSection cad s) : ownerAllows cad s.owner = true := by
  unfold OthersSection at h
  cases cad <;> cases ho : s.owner <;> simp_all [ownerAllows]

/-- **C100_side**: a side is accepted exactly if the kind of section has it; then it is the side, and nothing else is changed.
(`SetLayers` takes any value.) -/
theorem C100_side (cad : Cad) (k : OlnKind) (hk : k ≠ .route ∧ k ≠ .routeKo) (s : OlnSect) (h : ¬ OthersSection cad s) (l : Option Layer) :
    ((sectCall cad k s (.setSide l)).2 = true ↔ ∃ x, l = some x ∧ LegalSide k x) ∧
    ((sectCall cad k s (.setSide l)).2 = true → (sectCall cad k s (.setSide l)).1 = { s with side := l }) := by
  have := allows_own h
  unfold sectCall
  rw [if_neg (by simp [this])]
  simp only
  cases k <;> first | exact absurd rfl hk.1 | exact absurd rfl hk.2 | skip
  all_goals
    cases l with
    | none => simp [setSide]
    | some x => cases x <;> simp [setSide, LegalSide]

/-- **C100_height**: a height is accepted exactly if it is not negative; then it is the height, and nothing else is changed. -/
theorem C100_height (cad : Cad) (k : OlnKind) (hk : k = .place ∨ k = .placeKo) (s : OlnSect) (h : ¬ OthersSection cad s) (x : ℚ) :
    ((sectCall cad k s (.setMaxHeight x)).2 = true ↔ 0 ≤ x) ∧
    (0 ≤ x → (sectCall cad k s (.setMaxHeight x)).1 = { s with thickness := x }) := by
  have := allows_own h
  unfold sectCall
  rw [if_neg (by simp [this])]
  by_cases hx : x < 0
  · rcases hk with rfl | rfl <;> simp [setMaxHeight, hx]
  · have := not_lt.1 hx
    rcases hk with rfl | rfl <;> simp [setMaxHeight, hx, this]

/-- **C100_refused_partial**: a call that is refused changes nothing, unless it is a `SetSide` other than of a region or a
`SetMaxHeight`. -/
theorem C100_refused_partial (cad : Cad) (k : OlnKind) (s : OlnSect) (c : SectCall) (h : (sectCall cad k s c).2 = false)
    (h1 : ∀ l, c = .setSide l → k = .region ∨ k = .route ∨ k = .routeKo ∨ OthersSection cad s)
    (h2 : ∀ x, c = .setMaxHeight x → OthersSection cad s) : (sectCall cad k s c).1 = s := by
  by_cases ho : OthersSection cad s
  · have := (C100_other_system cad k s ho [c]).1
    simpa [sectRun] using this
  · have ha := allows_own ho
    unfold sectCall at h ⊢
    rw [if_neg (by simp [ha])] at h ⊢
    cases c with
    | setSide l =>
      rcases h1 l rfl with rfl | rfl | rfl | hh
      · cases l with
        | none => rfl
        | some x => cases x <;> simp_all [setSide]
      · simp [setSide] at h
      · simp [setSide] at h
      · exact absurd hh ho
    | setMaxHeight x => exact absurd (h2 x rfl) ho
    | setThickness t =>
      simp only at h ⊢
      split
      · rfl
      · rename_i ht; rw [if_neg ht] at h; simp at h
    | setIdent n => cases k <;> simp_all [setIdent]
    | setOwner o => simp at h
    | addOutline l => simp at h
    | clear => simp at h

/-- **C100_side_lost** (a refused call can do harm): a keepout for placement that can be written gets a side it cannot have; the call
is refused, but the side it had is gone and the board cannot be saved any more. -/
theorem C100_side_lost (cad : Cad) (s : OlnSect) (h : ¬ OthersSection cad s) (ho : s.outlines ≠ []) (ccw : List QSeg → Bool) (u : Iges.Idf.Unit) :
    (sectCall cad .placeKo s (.setSide (some .inner))).2 = false ∧
    writeSect .placeKo ccw u (sectCall cad .placeKo s (.setSide (some .inner))).1 = .throws := by
  have ha := allows_own h
  have e : sectCall cad .placeKo s (.setSide (some .inner)) = ({ s with side := none }, false) := by
    unfold sectCall
    rw [if_neg (by simp [ha])]
    rfl
  rw [e]
  exact ⟨rfl, C79_no_side_refused .placeKo (by simp) ccw u _ ho rfl⟩

/-- **C100_height_lost**: likewise a refused height sets the height to zero. -/
theorem C100_height_lost (cad : Cad) (s : OlnSect) (h : ¬ OthersSection cad s) :
    (sectCall cad .place s (.setMaxHeight (-5))).2 = false ∧ (sectCall cad .place s (.setMaxHeight (-5))).1.thickness = 0 := by
  have ha := allows_own h
  unfold sectCall
  rw [if_neg (by simp [ha])]
  norm_num [setMaxHeight]

/-- What every history keeps. -/
def Kept (k : OlnKind) (s : OlnSect) : Prop :=
  (∀ l, s.side = some l → LegalSide k l) ∧
  (k = .place ∨ k = .placeKo → 0 ≤ s.thickness ∨ s.thickness = -1) ∧
  (k ≠ .place → k ≠ .placeKo → 0 ≤ s.thickness)

theorem kept_call (cad : Cad) (k : OlnKind) (s : OlnSect) (c : SectCall) (h : Kept k s) : Kept k (sectCall cad k s c).1 := by
  unfold sectCall
  split
  · exact h
  · obtain ⟨h1, h2, h3⟩ := h
    cases c with
    | setSide l =>
      cases k <;> cases l with
      | none => first | exact ⟨h1, h2, h3⟩ | exact ⟨by simp [setSide], h2, h3⟩
      | some x => cases x <;> first | exact ⟨h1, h2, h3⟩ | exact ⟨by simp [setSide, LegalSide], h2, h3⟩
    | setMaxHeight x =>
      cases k <;> first
        | exact ⟨h1, h2, h3⟩
        | (simp only [setMaxHeight]
           split
           · exact ⟨h1, by simp, by simp⟩
           · rename_i hx
             exact ⟨h1, fun _ => Or.inl (not_lt.1 hx), by simp⟩)
    | setThickness t =>
      simp only
      split
      · exact ⟨h1, h2, h3⟩
      · rename_i ht
        exact ⟨h1, fun _ => Or.inl (not_lt.1 ht), fun _ _ => not_lt.1 ht⟩
    | setIdent n => cases k <;> exact ⟨h1, h2, h3⟩
    | setOwner o => exact ⟨h1, h2, h3⟩
    | addOutline l => exact ⟨h1, h2, h3⟩
    | clear =>
      refine ⟨by simp [clearSect], fun hk => ?_, fun hk hk' => ?_⟩
      · left; rcases hk with rfl | rfl <;> simp [clearSect]
      · cases k <;> first | exact absurd rfl hk | exact absurd rfl hk' | exact h3 (by simp) (by simp) | simp [clearSect]

theorem kept_run (cad : Cad) (k : OlnKind) (cs : List SectCall) : ∀ s, Kept k s → Kept k (sectRun cad k s cs).1 := by
  induction cs with
  | nil => intro s h; exact h
  | cons c cs ih => intro s h; exact ih _ (kept_call cad k s c h)

theorem kept_new (k : OlnKind) : Kept k (newSect k) := by
  refine ⟨by simp [newSect], fun hk => ?_, fun hk hk' => ?_⟩
  · right; simp [newSect, hk]
  · simp [newSect, hk, hk']

/-- **C100_legal**: whatever calls are made on a new section, it has no side its kind does not have, and its height or thickness is
not negative, unless a height was never given. -/
theorem C100_legal (cad : Cad) (k : OlnKind) (cs : List SectCall) :
    (∀ l, (sectRun cad k (newSect k) cs).1.side = some l → LegalSide k l) ∧
    (0 ≤ (sectRun cad k (newSect k) cs).1.thickness ∨ ((k = .place ∨ k = .placeKo) ∧ (sectRun cad k (newSect k) cs).1.thickness = -1)) := by
  obtain ⟨h1, h2, h3⟩ := kept_run cad k cs _ (kept_new k)
  refine ⟨h1, ?_⟩
  by_cases hk : k = .place ∨ k = .placeKo
  · exact (h2 hk).imp id fun e => ⟨hk, e⟩
  · simp only [not_or] at hk
    exact Or.inl (h3 hk.1 hk.2)

/-- Members that the kind does not have in the file keep their initial values. -/
def Blank : OlnKind → OlnSect → Prop
  | .via, s => s.side = none ∧ s.thickness = 0 ∧ s.ident = []
  | .route, s | .routeKo, s => s.thickness = 0 ∧ s.ident = []
  | .place, s | .placeKo, s => s.ident = []
  | .region, s => s.thickness = 0
  | .other, _ => True

theorem blank_call (cad : Cad) (k : OlnKind) (s : OlnSect) (c : SectCall) (hc : InFile k c) (h : Blank k s) :
    Blank k (sectCall cad k s c).1 := by
  unfold sectCall
  split
  · exact h
  · cases k <;> cases c <;> first
      | exact absurd hc id
      | exact h
      | trivial
      | (rename_i x; simp only [setMaxHeight]; split <;> exact h)
      | (simp_all [Blank, clearSect]; done)
      | (rename_i l; cases l with
          | none => exact h
          | some y => cases y <;> exact h)

theorem blank_run (cad : Cad) (k : OlnKind) (cs : List SectCall) : ∀ s, (∀ c ∈ cs, InFile k c) → Blank k s →
    Blank k (sectRun cad k s cs).1 := by
  induction cs with
  | nil => intro s _ h; exact h
  | cons c cs ih =>
    intro s hc h
    exact ih _ (fun d hd => hc d (by simp [hd])) (blank_call cad k s c (hc c (by simp)) h)

theorem blank_new (k : OlnKind) : Blank k (newSect k) := by cases k <;> simp [Blank, newSect]

/-- **C100_survives_partial**: a new section of any kind but "other outline" that was given, by any sequence of calls about what the file has for it,
a side (layers, a height, a name) and one closed outline can be written and read back, with the same owner, side and name, the same
height up to the places written and the same segments (C79 says how near). -/
theorem C100_survives_partial (cad : Cad) (k : OlnKind) (hk : k ≠ .other) (cs : List SectCall) (hc : ∀ c ∈ cs, InFile k c)
    (ccw : List QSeg → Bool) (u : Iges.Idf.Unit) (hu : u ≠ .tnm) (g : ℚ) (hg : 0 ≤ g) (s : OlnSect)
    (hs : s = (sectRun cad k (newSect k) cs).1) (hside : k = .via ∨ s.side ≠ none)
    (hheight : k = .place ∨ k = .placeKo → s.thickness ≠ -1 ∧ s.thickness ≤ 10 ^ 300)
    (hname : k = .region → Plain s.ident) (l : List QSeg) (ho : s.outlines = [l]) (hl : GoodLoop u g l) (after : Str) :
    ∃ text header body s' l', writeSect k ccw u s = .text text ∧ lines (text ++ after) = header :: body ∧
      readSect k ccw u .v3 header body = some (s', [] :: lines after) ∧
      s'.owner = s.owner ∧ s'.side = s.side ∧ s'.ident = s.ident ∧ |s'.thickness - s.thickness| ≤ lengthTol u ∧
      s'.outlines = [l'] ∧ List.Forall₂ (SegNear (lengthTol u + g)) l l' := by
  refine C79_roundtrip_partial k hk ccw u hu g hg s ?_ l ho hl after
  have hb := blank_run cad k cs _ hc (blank_new k)
  obtain ⟨k1, k2, k3⟩ := kept_run cad k cs _ (kept_new k)
  rw [← hs] at hb k1 k2 k3
  have hsd : k ≠ .via → ∃ x, s.side = some x := fun hv => Option.ne_none_iff_exists'.1 (hside.resolve_left hv)
  have hth : k = .place ∨ k = .placeKo → 0 ≤ s.thickness ∧ |s.thickness| ≤ 10 ^ 300 := fun hp => by
    have h0 := (k2 hp).resolve_right (hheight hp).1
    exact ⟨h0, by rw [abs_of_nonneg h0]; exact (hheight hp).2⟩
  cases k with
  | other => exact absurd rfl hk
  | via => exact hb
  | route => exact ⟨hsd (by simp), hb⟩
  | routeKo => exact ⟨hsd (by simp), hb⟩
  | place =>
    obtain ⟨x, hx⟩ := hsd (by simp)
    exact ⟨⟨x, hx, k1 x hx⟩, (hth (by simp)).1, (hth (by simp)).2, hb⟩
  | placeKo =>
    obtain ⟨x, hx⟩ := hsd (by simp)
    exact ⟨⟨x, hx, k1 x hx⟩, (hth (by simp)).1, (hth (by simp)).2, hb⟩
  | region =>
    obtain ⟨x, hx⟩ := hsd (by simp)
    exact ⟨⟨x, hx, k1 x hx⟩, hb, hname rfl⟩

/-- Non-vacuity: a placement outline that gets a height, a side that is refused, a side, a circle and an owner is saved and read. -/
example : ∃ text header body s' l', writeSect .place ccwOf .mm (sectRun .elec .place (newSect .place)
      [.setMaxHeight 3, .setSide (some .inner), .setSide (some .both), .addOutline hole, .setOwner .ecad]).1 = .text text ∧
    lines (text ++ []) = header :: body ∧ readSect .place ccwOf .mm .v3 header body = some (s', [] :: lines []) ∧
    s'.side = some .both ∧ s'.owner = .ecad ∧ s'.outlines = [l'] := by
  have e : (sectRun .elec .place (newSect .place)
      [.setMaxHeight 3, .setSide (some .inner), .setSide (some .both), .addOutline hole, .setOwner .ecad]).1 =
      ⟨.ecad, some .both, 3, [], [hole]⟩ := by
    norm_num [sectRun, sectCall, setMaxHeight, setSide, newSect, ownerAllows]
  have hhole : GoodLoop .mm 0 hole := by
    refine ⟨?_, .inl ⟨_, rfl, by decide +kernel⟩⟩
    intro s hs
    simp only [hole, List.mem_cons, List.not_mem_nil, or_false] at hs
    subst hs
    refine ⟨⟨big1 ?_, big1 ?_⟩, big1 ?_, big1 ?_⟩ <;> norm_num
  obtain ⟨text, header, body, s', l', h1, h2, h3, h4, h5, -, -, h6, -⟩ := C100_survives_partial .elec .place (by simp) _
    (by intro c _; cases c <;> trivial) ccwOf .mm (by decide) 0 le_rfl _ e.symm (Or.inr (by simp))
    (fun _ => ⟨by norm_num, le_trans (by norm_num) (show (10 : ℚ) ≤ 10 ^ 300 from le_self_pow₀ (by norm_num) (by norm_num))⟩)
    (by simp) hole rfl hhole []
  rw [e]
  exact ⟨text, header, body, s', l', h1, h2, h3, h5, h4, h6⟩

/-- **C100_clear_partial**: after `Clear` a section is as new, but for the height or thickness: a placement outline has height zero
instead of none, and other outlines and sections for routing and vias keep their thickness. -/
theorem C100_clear_partial (cad : Cad) (k : OlnKind) (s : OlnSect) (h : ¬ OthersSection cad s)
    (hi : k = .other ∨ k = .via ∨ k = .region ∨ s.ident = []) :
    (sectCall cad k s .clear).1 = { newSect k with
      thickness := if k = .place ∨ k = .placeKo ∨ k = .region then 0 else s.thickness } := by
  have ha := allows_own h
  unfold sectCall
  rw [if_neg (by simp [ha])]
  cases k <;> simp_all [clearSect, newSect]

/-- **C100_clear_height**: so a cleared placement outline is not a new one. -/
theorem C100_clear_height : (sectCall .elec .place (newSect .place) .clear).1 ≠ newSect .place := by
  intro h
  have := congrArg OlnSect.thickness h
  norm_num [sectCall, newSect, ownerAllows, clearSect] at this

/-- What a remembered name is. -/
def NameOk (n : PartName) : Prop := n.uid = [] ∨ (n.uid = n.geometry ++ '_' :: n.part ∧ ¬ (n.geometry = [] ∧ n.part = []))

theorem name_ok (n : PartName) (c : NameCall) (h : NameOk n) : NameOk (c.run n) := by
  cases c with
  | setGeom s => exact Or.inl rfl
  | setPart s => exact Or.inl rfl
  | getUID =>
    simp only [NameCall.run, Idf.getUID]
    split
    · exact h
    · split
      · exact h
      · rename_i hg
        exact Or.inr ⟨rfl, hg⟩
  | clear => exact Or.inl rfl
  | standIn g p =>
    simp only [NameCall.run]
    split
    · exact Or.inr ⟨by decide, by decide⟩
    · rename_i hg; exact Or.inr ⟨rfl, hg⟩

theorem name_step (n : PartName) (c : NameCall) (cs : List NameCall) :
    Spec.names (n.geometry, n.part) (c :: cs) = Spec.names ((c.run n).geometry, (c.run n).part) cs := by
  cases c with
  | getUID =>
    simp only [NameCall.run, Idf.getUID]
    split
    · rfl
    · split <;> rfl
  | standIn g p =>
    simp only [NameCall.run, Spec.names]
    split <;> rfl
  | _ => rfl

theorem name_run (cs : List NameCall) : ∀ n, NameOk n → NameOk (cs.foldl NameCall.run n) ∧
    ((cs.foldl NameCall.run n).geometry, (cs.foldl NameCall.run n).part) = Spec.names (n.geometry, n.part) cs := by
  induction cs with
  | nil => intro n h; exact ⟨h, rfl⟩
  | cons c cs ih =>
    intro n h
    obtain ⟨a, b⟩ := ih _ (name_ok n c h)
    exact ⟨a, b.trans (name_step n c cs).symm⟩

/-- **C100_uid**: after any sequence of calls the unique name of a part is made of the names it has now, and is empty exactly if both
of them are. -/
theorem C100_uid (cs : List NameCall) :
    (getUID (cs.foldl NameCall.run ⟨[], [], []⟩)).2 =
      if Spec.names ([], []) cs = ([], []) then [] else (Spec.names ([], []) cs).1 ++ '_' :: (Spec.names ([], []) cs).2 := by
  obtain ⟨h, e⟩ := name_run cs ⟨[], [], []⟩ (Or.inl rfl)
  simp only at e
  rw [← e]
  set n := cs.foldl NameCall.run ⟨[], [], []⟩
  simp only [Prod.mk.injEq]
  unfold getUID
  rcases h with h | ⟨h, h'⟩
  · rw [if_neg (by simp [h])]
    by_cases hn : n.geometry = [] ∧ n.part = []
    · rw [if_pos hn, if_pos hn, h]
    · rw [if_neg hn, if_neg hn]
  · rw [if_pos (by rw [h]; simp), if_neg h', h]

example : (getUID ([NameCall.setGeom ['a'], .getUID, .setPart ['b']].foldl NameCall.run ⟨[], [], []⟩)).2 = ['a', '_', 'b'] := by
  decide

/-- **C100_numbers**: after any sequence of calls the scale is not zero, the precision is one of 1 to 8 and the versions are not
negative; a refused call changes nothing. -/
theorem C100_numbers (cs : List NumCall) :
    let n := cs.foldl (fun n c => (NumCall.run n c).1) newNums
    n.scale ≠ 0 ∧ 1 ≤ n.prec ∧ n.prec ≤ 8 ∧ 0 ≤ n.brdVersion ∧ 0 ≤ n.libVersion ∧
    ∀ c, (NumCall.run n c).2 = false → (NumCall.run n c).1 = n := by
  have key : ∀ (cs : List NumCall) (n : BoardNums), (n.scale ≠ 0 ∧ 1 ≤ n.prec ∧ n.prec ≤ 8 ∧ 0 ≤ n.brdVersion ∧ 0 ≤ n.libVersion) →
      let m := cs.foldl (fun n c => (NumCall.run n c).1) n
      m.scale ≠ 0 ∧ 1 ≤ m.prec ∧ m.prec ≤ 8 ∧ 0 ≤ m.brdVersion ∧ 0 ≤ m.libVersion := by
    intro cs
    induction cs with
    | nil => intro n h; exact h
    | cons c cs ih =>
      intro n h
      refine ih _ ?_
      obtain ⟨h1, h2, h3, h4, h5⟩ := h
      cases c <;> simp only [NumCall.run] <;> (try split) <;> simp_all <;> omega
  intro n
  obtain ⟨h1, h2, h3, h4, h5⟩ := key cs newNums (by simp [newNums])
  refine ⟨h1, h2, h3, h4, h5, fun c hc => ?_⟩
  cases c <;> simp only [NumCall.run] at hc ⊢ <;> (try split at hc) <;> simp_all

end Iges.Props.IdfSetters
