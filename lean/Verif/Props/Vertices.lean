import Verif.Props.Trees
/-
C30: vertex lists.
-/
namespace Iges.Props
open Iges

/-- The same values in the same roles. -/
structure PointNear (res : ℚ) (p q : Point ℚ) : Prop where
  x : Spec.Near res p.x q.x
  y : Spec.Near res p.y q.y
  z : Spec.Near res p.z q.z

/-- The reals of a list of vertices. -/
def vertexReals (ps : List (Point ℚ)) : List ℚ := ps.flatMap fun p => [p.x, p.y, p.z]

theorem vertexGroups_items (pd last : Char) (r : ℚ) : ∀ ps : List (Point ℚ),
    (vertexGroups pd last r ps).flatten.map Prod.fst = (vertexReals ps).map (Item.real · r)
  | [] => rfl
  | [_] => rfl
  | p :: q :: ps => by
    have := vertexGroups_items pd last r (q :: ps)
    simp only [vertexReals] at this ⊢
    simp only [vertexGroups, List.flatten_cons, List.map_append, this, List.flatMap_cons]
    simp

theorem vertexGroups_delims (pd last : Char) (r : ℚ) : ∀ (ps : List (Point ℚ)),
    ∀ x ∈ (vertexGroups pd last r ps).flatten, x.2 = pd ∨ x.2 = last
  | [], _, h => by simp [vertexGroups] at h
  | [p], x, h => by
    simp only [vertexGroups, List.flatten_cons, List.flatten_nil, List.append_nil, List.cons_append, List.nil_append,
      List.mem_cons, List.not_mem_nil, or_false] at h
    rcases h with rfl | rfl | rfl <;> simp
  | p :: q :: ps, x, h => by
    simp only [vertexGroups, List.flatten_cons, List.mem_append, List.mem_singleton] at h
    rcases h with rfl | rfl | rfl | h
    · simp
    · simp
    · simp
    · exact vertexGroups_delims pd last r (q :: ps) x (by simpa using h)

theorem vertexGroups_ok (pd last : Char) {r : ℚ} (hr : 0 < r) : ∀ (ps : List (Point ℚ)),
    (∀ x ∈ vertexReals ps, |x| ≤ 10 ^ (300 : ℤ)) → ∀ g ∈ vertexGroups pd last r ps, GroupOk g
  | [], _, g, h => by simp [vertexGroups] at h
  | [p], hp, g, h => by
    simp only [vertexReals, List.flatMap_cons, List.flatMap_nil, List.append_nil, List.mem_cons, List.not_mem_nil, or_false,
      forall_eq_or_imp, forall_eq] at hp
    simp only [vertexGroups, List.mem_cons, List.not_mem_nil, or_false] at h
    rcases h with rfl | rfl | rfl
    exacts [Or.inl ⟨_, _, rfl, hr, hp.1⟩, Or.inl ⟨_, _, rfl, hr, hp.2.1⟩, Or.inl ⟨_, _, rfl, hr, hp.2.2⟩]
  | p :: q :: ps, hp, g, h => by
    simp only [vertexReals, List.flatMap_cons (x := p), List.mem_append] at hp
    simp only [vertexGroups, List.mem_cons] at h
    rcases h with rfl | rfl | rfl | h
    · exact Or.inl ⟨_, _, rfl, hr, hp _ (Or.inl (by simp))⟩
    · exact Or.inl ⟨_, _, rfl, hr, hp _ (Or.inl (by simp))⟩
    · exact Or.inl ⟨_, _, rfl, hr, hp _ (Or.inl (by simp))⟩
    · exact vertexGroups_ok pd last hr (q :: ps) (fun x hx => hp x (Or.inr hx)) g h

theorem vertexGroups_last (pd last : Char) (r : ℚ) : ∀ (ps : List (Point ℚ)), ps ≠ [] →
    ∃ x, (vertexGroups pd last r ps).flatten.getLast? = some x ∧ x.2 = last
  | [], h => absurd rfl h
  | [p], _ => ⟨_, rfl, rfl⟩
  | p :: q :: ps, _ => by
    obtain ⟨x, h1, h2⟩ := vertexGroups_last pd last r (q :: ps) (by simp)
    refine ⟨x, ?_, h2⟩
    simp only [vertexGroups, List.flatten_cons]
    rw [List.getLast?_append_of_ne_nil, List.getLast?_append_of_ne_nil, List.getLast?_append_of_ne_nil]
    · exact h1
    · intro h; rw [h] at h1; simp at h1
    · simp
    · simp

theorem spaced_nonempty (rd : Char) : ∀ ps : List (Param × Char), (∀ x ∈ ps, x.1.body ≠ []) → Spaced rd ps
  | [], _ => trivial
  | [_], _ => trivial
  | _ :: q :: ps, h => ⟨fun _ => h q (by simp), spaced_nonempty rd (q :: ps) fun x hx => h x (List.mem_cons_of_mem _ hx)⟩

theorem spaced_append_pd (rd : Char) (a b : List (Param × Char)) (ha : ∀ x ∈ a, x.2 ≠ rd) (hb : Spaced rd b) :
    Spaced rd (a ++ b) := by
  induction a with
  | nil => exact hb
  | cons x a ih =>
    have h1 := ih fun y hy => ha y (List.mem_cons_of_mem _ hy)
    obtain ⟨p, d⟩ := x
    have hd : d ≠ rd := ha (p, d) (by simp)
    cases hab : a ++ b with
    | nil => rw [List.cons_append, hab]; trivial
    | cons y ys =>
      rw [List.cons_append, hab]
      rw [hab] at h1
      exact ⟨fun h => absurd h hd, h1⟩

theorem readVertex_at {E : PdEnv} (hE : E.Ok) {T : Str} {s : Src} (hs : SrcOf E s) {c : Cur} {p : Point ℚ} {r : ℚ}
    {d1 d2 d3 : Char} {rest : List (Param × Char)} (hr : 0 < r)
    (hx : |p.x| ≤ 10 ^ (300 : ℤ)) (hy : |p.y| ≤ 10 ^ (300 : ℤ)) (hz : |p.z| ≤ 10 ^ (300 : ℤ))
    (h1 : d1 = E.pd ∨ d1 = E.rd) (h2 : d2 = E.pd ∨ d2 = E.rd) (h3 : d3 = E.pd ∨ d3 = E.rd)
    (h : At T s.data c.idx ((.real (realText E.est r p.x), d1) :: (.real (realText E.est r p.y), d2) ::
      (.real (realText E.est r p.z), d3) :: rest)) :
    ∃ q c', readVertex s c = .val (q, c') ∧ PointNear r p q ∧ At T s.data c'.idx rest ∧
      c'.eor = (if d1 = E.rd ∨ d2 = E.rd ∨ d3 = E.rd then true else c.eor) := by
  have ok := hs.ok hE
  obtain ⟨w1, n1⟩ := realText_ok hE.est hE.num hr hx hE.pd hE.rd
  obtain ⟨w2, n2⟩ := realText_ok hE.est hE.num hr hy hE.pd hE.rd
  obtain ⟨w3, n3⟩ := realText_ok hE.est hE.num hr hz hE.pd hE.rd
  rw [← hs.pd, ← hs.rd] at h1 h2 h3 w1 w2 w3
  obtain ⟨i1, e1, a1⟩ := At.sReal (s := s) (e := c.eor) (dflt := none) h ok h1 w1
  obtain ⟨i2, e2, a2⟩ := a1.sReal (s := s) (e := if d1 = s.rd then true else c.eor) (dflt := none) ok h2 w2
  obtain ⟨i3, e3, a3⟩ := a2.sReal (s := s) (e := if d2 = s.rd then true else if d1 = s.rd then true else c.eor) (dflt := none) ok h3 w3
  have e1' : s.real c = _ := e1
  refine ⟨_, _, by simp only [readVertex, e1', Rd.val_bind, e2, e3]; rfl, ⟨?_, ?_, ?_⟩, a3, ?_⟩
  · rw [hs.num]; exact n1
  · rw [hs.num]; exact n2
  · rw [hs.num]; exact n3
  · rw [← hs.rd]
    by_cases g1 : d1 = s.rd <;> by_cases g2 : d2 = s.rd <;> by_cases g3 : d3 = s.rd <;> simp [g1, g2, g3]

theorem readVertices_at {E : PdEnv} (hE : E.Ok) {T : Str} {s : Src} (hs : SrcOf E s) {r : ℚ} (hr : 0 < r) {last : Char}
    (hl : last = E.pd ∨ last = E.rd) : ∀ (ps : List (Point ℚ)) (c : Cur) (rest : List (Param × Char)), ps ≠ [] →
    (∀ x ∈ vertexReals ps, |x| ≤ 10 ^ (300 : ℤ)) →
    At T s.data c.idx (toParams E (vertexGroups E.pd last r ps).flatten ++ rest) →
    ∃ qs c', readN (readVertex s) ps.length c = .val (qs, c') ∧ List.Forall₂ (PointNear r) ps qs ∧
      At T s.data c'.idx rest ∧ c'.eor = (if last = E.rd then true else c.eor)
  | [], _, _, h, _, _ => absurd rfl h
  | [p], c, rest, _, hb, h => by
    simp only [vertexReals, List.flatMap_cons, List.flatMap_nil, List.append_nil, List.mem_cons, List.not_mem_nil, or_false,
      forall_eq_or_imp, forall_eq] at hb
    obtain ⟨q, c', e, n, a, f⟩ := readVertex_at hE hs hr hb.1 hb.2.1 hb.2.2 hl hl hl h
    exact ⟨[q], c', by simp [readN, e], .cons n .nil, a, by simpa using f⟩
  | p :: p' :: ps, c, rest, _, hb, h => by
    simp only [vertexReals, List.flatMap_cons (x := p), List.mem_append] at hb
    have h' : At T s.data c.idx ((.real (realText E.est r p.x), E.pd) :: (.real (realText E.est r p.y), E.pd) ::
      (.real (realText E.est r p.z), E.pd) :: (toParams E (vertexGroups E.pd last r (p' :: ps)).flatten ++ rest)) := h
    obtain ⟨q, c', e, n, a, f⟩ := readVertex_at hE hs hr (hb _ (Or.inl (by simp))) (hb _ (Or.inl (by simp)))
      (hb _ (Or.inl (by simp))) (Or.inl rfl) (Or.inl rfl) (Or.inl rfl) h'
    obtain ⟨qs, c2, e2, n2, a2, f2⟩ := readVertices_at hE hs hr hl (p' :: ps) c' rest (by simp)
      (fun x hx => hb x (Or.inr hx)) a
    refine ⟨q :: qs, c2, ?_, .cons n n2, a2, ?_⟩
    · rw [List.length_cons, readN, e, Rd.val_bind]
      simp only [e2, Rd.val_bind]
      rfl
    · rw [f2, f]; simp [hE.ne]

theorem vertexReals_length (ps : List (Point ℚ)) : (vertexReals ps).length = 3 * ps.length := by
  unfold vertexReals
  induction ps with
  | nil => rfl
  | cons a l ih => simp only [List.flatMap_cons, List.length_append, ih, List.length_cons, List.length_nil]; omega

/-- C30: a vertex list with at least one vertex is read back with the same vertices in the same order, each
coordinate within the precision of the output. -/
theorem C30_vertex_list (E : PdEnv) (de i0 : Int) (ps : List (Point ℚ)) (xs : List ExtraRef)
    (hset : Setting E de i0 xs (6 * ps.length)) (hne : ps ≠ [])
    (hb : ∀ p ∈ ps, |p.x| ≤ 10 ^ (300 : ℤ) ∧ |p.y| ≤ 10 ^ (300 : ℤ) ∧ |p.z| ≤ 10 ^ (300 : ℤ)) :
    Spec.PdCycle (6 * ps.length + 2 * xs.length + 4) de i0 (vertexFormat E de ps xs [] i0) (vertexReadPD E de)
      (fun r => List.Forall₂ (PointNear E.res) ps r.1 ∧ r.2.1 = secA xs ++ secB xs ∧ r.2.2 = []) := by
  have hE := hset.env
  have hlen : 0 < ps.length := List.length_pos_iff.mpr hne
  have hroom := hset.room
  have hfirst := hset.first
  have hres := hE.res
  have hb' : ∀ x ∈ vertexReals ps, |x| ≤ 10 ^ (300 : ℤ) := by
    intro x hx
    obtain ⟨p, hp, hx⟩ := List.mem_flatMap.mp hx
    have := hb p hp
    simp only [List.mem_cons, List.not_mem_nil, or_false] at hx
    rcases hx with rfl | rfl | rfl
    exacts [this.1, this.2.1, this.2.2]
  have hf : vertexFormat E de ps xs [] i0 =
      formatPD E de [502, ps.length] (vertexGroups E.pd (E.last xs) E.res ps) xs [] 9999999 i0 := by
    unfold vertexFormat
    rw [if_neg (by omega), if_neg hne]
  rw [hf]
  have hl : E.last xs = E.pd ∨ E.last xs = E.rd := by unfold PdEnv.last; split <;> simp
  set its := (vertexGroups E.pd (E.last xs) E.res ps).flatten with hits
  have hfst : its.map Prod.fst = (vertexReals ps).map (Item.real · E.res) := vertexGroups_items _ _ _ _
  have hok : ∀ x ∈ its, x.1.Ok := by
    intro x hx
    have : x.1 ∈ its.map Prod.fst := List.mem_map_of_mem hx
    rw [hfst] at this
    obtain ⟨v, hv, e⟩ := List.mem_map.mp this
    rw [← e]; exact ⟨hres, hb' v hv⟩
  have hdl : ∀ x ∈ its, x.2 = E.pd ∨ x.2 = E.rd := by
    intro x hx
    rcases vertexGroups_delims _ _ _ _ x hx with h | h
    · exact Or.inl h
    · rw [h]; exact hl
  have hbody : ∀ x ∈ toParams E its, x.1.body ≠ [] := by
    intro x hx
    obtain ⟨y, hy, rfl⟩ := List.mem_map.mp hx
    have hy' : y.1 ∈ its.map Prod.fst := List.mem_map_of_mem hy
    rw [hfst] at hy'
    obtain ⟨v, hv, e⟩ := List.mem_map.mp hy'
    show (y.1.param E).body ≠ []
    rw [← e]
    obtain ⟨w, _⟩ := realText_ok hE.est hE.num hres (hb' v hv) hE.pd hE.rd
    exact w.1
  have hroom' := roomFor_extras_le xs
  obtain ⟨n, datas, w1, w2, w3, w4, w5, w6, a, w7, w8⟩ := pd_roundtrip_at hE (limit := 9999999) (pre := [(ps.length : Int)])
    (etype := 502) (R := List.Forall₂ (PointNear E.res) ps) (body := vertexReadParams) (xs := xs) (i0 := i0)
    hset.de (by decide)
    (preText_fits _ (by decide) (by simp; omega) (by simp)) hok hdl (vertexGroups_ok _ _ hres ps hb') hits.symm
    (by
      by_cases hxs : xs = []
      · rw [exItems, if_pos hxs, List.append_nil]
        exact spaced_nonempty _ _ hbody
      · rw [exItems_delimit hset.extras]
        refine spaced_append_pd _ _ _ ?_ (delimit_noEarly hE.ne _).spaced
        intro x hx
        obtain ⟨y, hy, rfl⟩ := List.mem_map.mp hx
        have : y.2 = E.pd := by
          rcases vertexGroups_delims _ _ _ _ y hy with h | h
          · exact h
          · rw [h]; simp [PdEnv.last, hxs]
        show y.2 ≠ E.rd
        rw [this]; exact hE.ne)
    (by
      by_cases hxs : xs = []
      · rw [exItems, if_pos hxs, List.append_nil]
        obtain ⟨x, h1, h2⟩ := vertexGroups_last E.pd (E.last xs) E.res ps hne
        refine ⟨(x.1.param E, x.2), ?_, by rw [h2]; simp [PdEnv.last, hxs]⟩
        unfold toParams
        rw [List.getLast?_map, h1]; rfl
      · have hen : extrasOf xs ≠ [] := by
          rw [extrasOf, if_neg hxs]; unfold extraParams; split
          · simp
          · split <;> simp
        have hdn : delimit E.pd E.rd (extrasOf xs) ≠ [] := by
          intro h; have := congrArg List.length h; rw [delimit_length] at this; simp at this; exact hen this
        rw [exItems_delimit hset.extras, List.getLast?_append_of_ne_nil _ hdn]
        exact delimit_last _ hen)
    hset.extras ⟨hfirst, by omega⟩
    (by rw [hfst]; unfold roomOf; rw [realItems_cost, vertexReals_length]; push_cast at *; omega)
    (by
      intro T s c hs he h
      have h' : At T s.data c.idx ((Param.int ps.length, E.pd) :: (toParams E its ++ exItems E xs)) := h
      obtain ⟨i1, e1, a1⟩ := At.sInt (s := s) (e := c.eor) (dflt := none) h' (hs.ok hE) (Or.inl hs.pd.symm) (by omega)
      have e1' : s.int c = _ := e1
      obtain ⟨qs, c', e2, n2, a2, f2⟩ := readVertices_at hE hs hres hl ps ⟨i1, if E.pd = s.rd then true else c.eor⟩ _ hne hb' a1
      refine ⟨qs, c', ?_, n2, a2, ?_⟩
      · unfold vertexReadParams
        rw [e1', Rd.val_bind]
        simp only
        rw [Rd.need_true (by omega), Rd.val_bind, Int.toNat_natCast]
        exact e2
      · rw [f2, hs.rd]
        have := hE.ne
        by_cases hxs : xs = []
        · simp [PdEnv.last, hxs]
        · cases xs with
          | nil => exact absurd rfl hxs
          | cons y ys => simp [PdEnv.last, he, this])
  have hmost : datas.length ≤ 6 * ps.length + 2 * xs.length + 4 := by
    have h : roomOf (its.map Prod.fst) xs ≤ 6 * ps.length + 2 * xs.length + 4 := by
      rw [hfst]; unfold roomOf; rw [realItems_cost, vertexReals_length]; omega
    omega
  refine ⟨datas, ?_, hmost, fun d hd => ⟨w5 d hd, w6 d hd⟩, by rw [w1, w2], (a, secA xs ++ secB xs, []), ⟨w7, rfl, rfl⟩, fun more => ?_⟩
  · rintro rfl; simp at w3
  · rw [← w8 more, w2]
    show readPDWith E 502 de _ _ _ _ = _
    congr 1
    omega

example := C30_vertex_list _ _ _ [⟨1, 2, 3⟩, ⟨0, -5, 1 / 3⟩] _ ((exSetting id).mono (by decide)) (by decide)
  (by intro p hp; refine ⟨small_ok ?_, small_ok ?_, small_ok ?_⟩ <;> (revert p; decide +kernel))

/-- The same without optional pointers. -/
example := C30_vertex_list (exEnv id (1 / 1000)) 7 3 [⟨1, 2, 3⟩, ⟨0, -5, 1 / 3⟩] []
  ⟨exEnv_ok id (by norm_num), by decide, ⟨by decide, by decide⟩, by decide, by decide⟩ (by decide)
  (by intro p hp; refine ⟨small_ok ?_, small_ok ?_, small_ok ?_⟩ <;> (revert p; decide +kernel))

end Iges.Props
