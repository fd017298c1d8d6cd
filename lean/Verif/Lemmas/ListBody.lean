import Verif.Model.ListEntities
import Verif.Lemmas.EntityBody
/-
Lemmas about the entities that hold lists.
-/
namespace Iges
open Props

theorem Rd.bind_val {α β : Type} {x : Rd α} {f : α → Rd β} {b : β} (h : x >>= f = .val b) :
    ∃ a, x = .val a ∧ f a = .val b := by
  cases x with
  | val a => exact ⟨a, rfl, h⟩
  | fail => cases h
  | ub => cases h
  | exn => cases h

theorem Ready.intIf {T : Str} {s : Src} {c : Cur} {n : Int} {ps : List Param} (ok : s.Ok)
    {p : Int → Prop} [DecidablePred p]
    (h : Ready T s c (.int n :: ps)) (hn : -2147483648 ≤ n ∧ n ≤ 2147483647) (hp : p n) :
    ∃ c', s.intIf p c = .val (n, c') ∧ Ready T s c' ps := by
  obtain ⟨c', e, h'⟩ := h.int ok (dflt := none) hn
  exact ⟨c', by simp [Src.intIf, e, Rd.need_true hp], h'⟩

theorem flagInt_range (b : Bool) : -2147483648 ≤ flagInt b ∧ flagInt b ≤ 2147483647 := by
  cases b <;> decide

theorem Ready.flag {T : Str} {s : Src} {c : Cur} {b : Bool} {ps : List Param} (ok : s.Ok)
    (h : Ready T s c (.int (flagInt b) :: ps)) :
    ∃ c', s.flag c = .val (b, c') ∧ Ready T s c' ps := by
  obtain ⟨c', e, h'⟩ := h.int ok (dflt := none) (flagInt_range b)
  refine ⟨c', ?_, h'⟩
  simp only [Src.flag, e, Rd.val_bind]
  rw [Rd.need_true (by cases b <;> decide), Rd.val_bind]
  cases b <;> rfl

section
variable {E : PdEnv} {α : Type} {T : Str} {s : Src} {c : Cur} {ps rest : List Param} {R : α → Prop}

theorem Reads.intIf (hE : E.Ok) (hs : SrcOf E s) {n : Int} {p : Int → Prop} [DecidablePred p]
    {f : Int × Cur → Rd (α × Cur)}
    (h : Ready T s c (.int n :: ps)) (hn : -2147483648 ≤ n ∧ n ≤ 2147483647) (hp : p n)
    (hf : ∀ c', Ready T s c' ps → Reads T s rest R (f (n, c'))) :
    Reads T s rest R (s.intIf p c >>= f) := by
  obtain ⟨c', e, h'⟩ := h.intIf (hs.ok hE) hn hp
  rw [e, Rd.val_bind]
  exact hf c' h'

theorem Reads.flag (hE : E.Ok) (hs : SrcOf E s) {b : Bool} {f : Bool × Cur → Rd (α × Cur)}
    (h : Ready T s c (.int (flagInt b) :: ps))
    (hf : ∀ c', Ready T s c' ps → Reads T s rest R (f (b, c'))) :
    Reads T s rest R (s.flag c >>= f) := by
  obtain ⟨c', e, h'⟩ := h.flag (hs.ok hE)
  rw [e, Rd.val_bind]
  exact hf c' h'

theorem Reads.list {β γ : Type} {g : Cur → Rd (γ × Cur)} {f : List γ × Cur → Rd (α × Cur)}
    (enc : β → List Param) (val : β → γ → Prop) (as : List β) {n : Nat} (hn : n = as.length)
    (h : Ready T s c (as.flatMap enc ++ ps))
    (hg : ∀ a ∈ as, ∀ c rest, Ready T s c (enc a ++ rest) → ∃ b c', g c = .val (b, c') ∧ val a b ∧ Ready T s c' rest)
    (hf : ∀ bs c', List.Forall₂ val as bs → Ready T s c' ps → Reads T s rest R (f (bs, c'))) :
    Reads T s rest R (readN g n c >>= f) := by
  subst hn
  obtain ⟨bs, c', e, hv, h'⟩ := readN_list g enc val as hg c ps h
  rw [e, Rd.val_bind]
  exact hf bs c' hv h'

end

theorem Reads.listEnd {β γ : Type} {T : Str} {s : Src} {c : Cur} {rest : List Param} {R : List γ → Prop}
    {g : Cur → Rd (γ × Cur)}
    (enc : β → List Param) (val : β → γ → Prop) (as : List β) {n : Nat} (hn : n = as.length)
    (h : Ready T s c (as.flatMap enc ++ rest))
    (hg : ∀ a ∈ as, ∀ c rest, Ready T s c (enc a ++ rest) → ∃ b c', g c = .val (b, c') ∧ val a b ∧ Ready T s c' rest)
    (hR : ∀ bs, List.Forall₂ val as bs → R bs) :
    Reads T s rest R (readN g n c) := by
  subst hn
  obtain ⟨bs, c', e, hv, h'⟩ := readN_list g enc val as hg c rest h
  exact ⟨bs, c', e, hR bs hv, h'⟩

theorem intMap_flatMap (ns : List Int) : ns.map Param.int = ns.flatMap fun n => [Param.int n] :=
  List.map_eq_flatMap

theorem intGroups_flatten (pd last : Char) : ∀ ns : List Int,
    (intGroups pd last ns).flatten = closeItems pd last (ns.map Item.int)
  | [] => rfl
  | [_] => rfl
  | x :: y :: xs => by
    have := intGroups_flatten pd last (y :: xs)
    simp only [intGroups, List.flatten_cons, this, List.map_cons, closeItems, List.singleton_append]

theorem intGroups_ok (pd last : Char) : ∀ xs : List Int, (∀ n ∈ xs, -2147483648 ≤ n ∧ n ≤ 2147483647) →
    ∀ g ∈ intGroups pd last xs, GroupOk g
  | [], _, g, hg => by simp [intGroups] at hg
  | [x], hx, g, hg => by
    simp only [intGroups, List.mem_singleton] at hg
    exact Or.inl ⟨_, _, hg, hx x (by simp)⟩
  | x :: y :: xs, hx, g, hg => by
    simp only [intGroups, List.mem_cons] at hg
    rcases hg with rfl | hg
    · exact Or.inl ⟨_, _, rfl, hx x (by simp)⟩
    · exact intGroups_ok pd last (y :: xs) (fun z hz => hx z (List.mem_cons_of_mem _ hz)) g hg

theorem intItems_cost (xs : List Int) : ((xs.map Item.int).map Item.cost).sum = 2 * xs.length := by
  induction xs with
  | nil => rfl
  | cons a l ih => simp only [List.map_cons, List.sum_cons, ih, Item.cost, List.length_cons]; omega

theorem preText_fits (pd : Char) {etype : Int} (het : 100 ≤ etype ∧ etype ≤ 999) {pre : List Int}
    (hpre : ∀ n ∈ pre, 0 ≤ n ∧ n < 10 ^ 10) (hl : pre.length ≤ 4) : (preText pd (etype :: pre)).length ≤ 64 := by
  have := preText_length pd (etype :: pre) 10 (by norm_num) (by
    intro n hn
    rcases List.mem_cons.mp hn with rfl | hn
    · constructor <;> omega
    · exact hpre n hn)
  simp only [List.length_cons] at this
  omega

/-- The cycle of an entity whose parameters are integers. -/
theorem intCycle {E : PdEnv} {de i0 etype limit : Int} {pre : List Int} {ns : List Int} {ex : List ExtraRef}
    {groups : List (List (Item × Char))}
    {α : Type} {R : α → Prop} {body : Src → Cur → Rd (α × Cur)} (hset : Setting E de i0 ex (2 * ns.length))
    (het : 100 ≤ etype ∧ etype ≤ 999) (hfit : (preText E.pd (etype :: pre)).length ≤ 64)
    (hlim : 9999997 ≤ limit)
    (hne : ns ≠ []) (hb : ∀ n ∈ ns, -2147483648 ≤ n ∧ n ≤ 2147483647)
    (hg : ∀ g ∈ groups, GroupOk g) (hflat : groups.flatten = closeItems E.pd (E.last ex) (ns.map Item.int))
    (hbody : ∀ T s c rest, SrcOf E s → Ready T s c (pre.map Param.int ++ (ns.map Param.int ++ rest)) →
      Reads T s rest R (body s c)) :
    Spec.PdCycle (2 * ns.length + 2 * ex.length + 4) de i0 (formatPD E de (etype :: pre) groups ex [] limit i0)
      (fun a b ls => readPDWith E etype de a b ls body)
      (fun q => R q.1 ∧ q.2.1 = secA ex ++ secB ex ∧ q.2.2 = []) := by
  refine pdCycle hset.env (items := ns.map Item.int) hset.de het hfit (by simpa using hne) ?_
    hg hflat hset.extras ⟨hset.first, ?_⟩ hset.room ?_ ?_
  · intro it hit
    obtain ⟨n, hn, rfl⟩ := List.mem_map.mp hit
    exact hb n hn
  · have := hset.room; omega
  · rw [intItems_cost]
  · intro T s c rest hs h
    refine hbody T s c rest hs ?_
    simpa only [List.map_map, Function.comp_def, Item.param] using h

/-- The text an entity of integers is written as cannot be read back by a body that fails on it. -/
theorem pd_refused {E : PdEnv} {de i0 etype limit : Int} {pre : List Int} {ns : List Int} {ex : List ExtraRef}
    {groups : List (List (Item × Char))}
    {α : Type} {body : Src → Cur → Rd (α × Cur)} (hset : Setting E de i0 ex (2 * ns.length))
    (het : 100 ≤ etype ∧ etype ≤ 999) (hfit : (preText E.pd (etype :: pre)).length ≤ 64)
    (hlim : 9999997 ≤ limit)
    (hne : ns ≠ []) (hb : ∀ n ∈ ns, -2147483648 ≤ n ∧ n ≤ 2147483647)
    (hg : ∀ g ∈ groups, GroupOk g) (hflat : groups.flatten = closeItems E.pd (E.last ex) (ns.map Item.int))
    (hbody : ∀ j s c, SrcOf E s →
      Ready (List.replicate j ' ') s c (pre.map Param.int ++ (ns.map Param.int ++ extrasOf ex)) → body s c = .fail) :
    Spec.PdRefused de i0 (formatPD E de (etype :: pre) groups ex [] limit i0)
      (fun a b ls => readPDWith E etype de a b ls body) := by
  have := roomFor_extras_le ex
  have hroom := hset.room
  obtain ⟨n, datas, j, hf, hn, hpos, _, h64, hnl, htext, hfind, hsz, _, hready⟩ := pd_written hset.env
    (items := ns.map Item.int) (limit := limit) hset.de het hfit (by simpa using hne)
    (by
      intro it hit
      obtain ⟨n, hn, rfl⟩ := List.mem_map.mp hit
      exact hb n hn) hg hflat hset.extras ⟨hset.first, by omega⟩
    (by unfold roomOf; rw [intItems_cost]; push_cast at *; omega)
  refine ⟨datas, ?_, fun d hd => ⟨h64 d hd, hnl d hd⟩, by rw [hf, hn], fun more => ?_⟩
  · rintro rfl; simp at hpos
  · have h1 := htext more
    rw [show n - i0 = (datas.length : Int) by omega] at h1
    have h2 := hbody j ⟨datas.flatten, E.pd, E.rd, E.num⟩ ⟨4, false⟩ ⟨rfl, rfl, rfl, hsz⟩
      (by simpa only [List.map_map, Function.comp_def, Item.param] using hready)
    simp only [readPDWith, h1, Rd.lift_ok, hfind]
    rw [if_neg (by decide), h2]
    rfl

/-- The text an entity of integers is written as, and what a reader makes of it. -/
theorem pd_lost {E : PdEnv} {de i0 etype limit : Int} {pre : List Int} {ns : List Int} {ex : List ExtraRef}
    {groups : List (List (Item × Char))}
    {α : Type} {body : Src → Cur → Rd (α × Cur)} {R : α → Prop} (hset : Setting E de i0 ex (2 * ns.length))
    (het : 100 ≤ etype ∧ etype ≤ 999) (hfit : (preText E.pd (etype :: pre)).length ≤ 64)
    (hlim : 9999997 ≤ limit)
    (hne : ns ≠ []) (hb : ∀ n ∈ ns, -2147483648 ≤ n ∧ n ≤ 2147483647)
    (hg : ∀ g ∈ groups, GroupOk g) (hflat : groups.flatten = closeItems E.pd (E.last ex) (ns.map Item.int))
    (hbody : ∀ j s c, SrcOf E s →
      Ready (List.replicate j ' ') s c (pre.map Param.int ++ (ns.map Param.int ++ extrasOf ex)) →
      ∀ a c', body s c = .val (a, c') → ¬ R a) :
    Spec.PdLost de i0 (formatPD E de (etype :: pre) groups ex [] limit i0)
      (fun a b ls => readPDWith E etype de a b ls body) (fun r => R r.1) := by
  have := roomFor_extras_le ex
  have hroom := hset.room
  obtain ⟨n, datas, j, hf, hn, hpos, _, h64, hnl, htext, hfind, hsz, _, hready⟩ := pd_written hset.env
    (items := ns.map Item.int) (limit := limit) hset.de het hfit (by simpa using hne)
    (by
      intro it hit
      obtain ⟨n, hn, rfl⟩ := List.mem_map.mp hit
      exact hb n hn) hg hflat hset.extras ⟨hset.first, by omega⟩
    (by unfold roomOf; rw [intItems_cost]; push_cast at *; omega)
  refine ⟨datas, ?_, fun d hd => ⟨h64 d hd, hnl d hd⟩, by rw [hf, hn], fun more b hb => ?_⟩
  · rintro rfl; simp at hpos
  · have h1 := htext more
    rw [show n - i0 = (datas.length : Int) by omega] at h1
    have h2 := hbody j ⟨datas.flatten, E.pd, E.rd, E.num⟩ ⟨4, false⟩ ⟨rfl, rfl, rfl, hsz⟩
      (by simpa only [List.map_map, Function.comp_def, Item.param] using hready)
    simp only [readPDWith, h1, Rd.lift_ok, hfind] at hb
    rw [if_neg (by decide)] at hb
    obtain ⟨⟨a, c'⟩, e1, hb⟩ := Rd.bind_val hb
    have : b.1 = a := by
      split at hb
      · cases hb; rfl
      · obtain ⟨⟨xs, i⟩, e2, hb⟩ := Rd.bind_val hb
        cases hb; rfl
    show ¬ R b.1
    rw [this]
    exact h2 a c' e1

/-- Past the last parameter nothing can be read. -/
theorem Ready.past {E : PdEnv} (hE : E.Ok) {j : Nat} {s : Src} (hs : SrcOf E s) {c : Cur} {d : Option Int}
    (h : Ready (List.replicate j ' ') s c []) : s.int c d = .fail := by
  obtain ⟨⟨pre, S, hd, hi, he⟩, _⟩ := h
  cases he
  have hdrop : s.data.drop c.idx = List.replicate j ' ' := by rw [hd, hi]; simp
  have hpd : s.pd ∉ List.replicate j ' ' := by rw [hs.pd]; exact legal_not_mem_blanks hE.pd j
  have hrd : s.rd ∉ List.replicate j ' ' := by rw [hs.rd]; exact legal_not_mem_blanks hE.rd j
  have hL : ParseLString s.data c.idx c.eor s.pd s.rd = .ok ⟨false, [], c.idx, c.eor⟩ := by
    unfold ParseLString
    rw [hdrop]
    cases j with
    | zero => rfl
    | succ j =>
      rw [List.replicate_succ]
      simp only
      rw [if_neg (by
        rintro (h | h)
        · exact hpd (by rw [← h]; simp)
        · exact hrd (by rw [← h]; simp))]
      have h1 : findFrom s.data s.pd c.idx = none := findFrom_none.mpr (by rw [hdrop]; exact hpd)
      have h2 : findFrom s.data s.rd c.idx = none := findFrom_none.mpr (by rw [hdrop]; exact hrd)
      rw [h1, h2]; rfl
  simp only [Src.int, ParseInt, hL]
  rfl

/-- A successful read takes the next of the integers. -/
theorem Ready.take {E : PdEnv} (hE : E.Ok) {j : Nat} {s : Src} (hs : SrcOf E s) {c c' : Cur} {ns : List Int} {n : Int}
    (hb : ∀ n ∈ ns, -2147483648 ≤ n ∧ n ≤ 2147483647)
    (h : Ready (List.replicate j ' ') s c (ns.map Param.int)) (he : s.int c = .val (n, c')) :
    ∃ ns', ns = n :: ns' ∧ Ready (List.replicate j ' ') s c' (ns'.map Param.int) := by
  cases ns with
  | nil => rw [Ready.past hE hs h] at he; cases he
  | cons m ns =>
    obtain ⟨c1, e1, h1⟩ := Ready.int (hs.ok hE) (dflt := none) h (hb m (by simp))
    rw [e1] at he
    cases he
    exact ⟨ns, rfl, h1⟩

end Iges
