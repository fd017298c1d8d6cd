import Verif.Model.Path
import Verif.Spec.Path
import Mathlib.Data.List.Induction
/-
C48, C49: file paths.
-/
namespace Iges.Props
open Iges

/-- `findLast` finds the last occurrence. -/
theorem findLast_append (a b : Str) (c : Char) (h : c ∉ b) : findLast (a ++ c :: b) c = some a.length := by
  unfold findLast
  have h1 : (a ++ c :: b).reverse = b.reverse ++ c :: a.reverse := by simp
  have h2 : (b.reverse ++ c :: a.reverse).idxOf? c = some b.length := by
    rw [List.idxOf?_eq_some_iff]
    refine ⟨by simp, by simp, ?_⟩
    intro j hj
    rw [List.getElem_append_left (by simpa using hj)]
    intro e
    apply h
    have : b.reverse[j]'(by simpa using hj) ∈ b.reverse := List.getElem_mem _
    rw [e] at this
    simpa using this
  rw [h1, h2]
  simp

theorem findLast_none (s : Str) (c : Char) (h : c ∉ s) : findLast s c = none := by
  unfold findLast
  have : s.reverse.idxOf? c = none := by
    rw [List.idxOf?_eq_none_iff]
    simpa using h
  rw [this]; rfl

theorem afterSep_parts {path dir file : Str} (h : Spec.PathParts path dir file) : afterSep path = dir.length := by
  obtain ⟨rfl, h1, h2⟩ := h
  unfold afterSep
  rcases h2 with rfl | h2
  · rw [List.nil_append, findLast_none _ _ h1]; rfl
  · obtain ⟨d, rfl⟩ := List.getLast?_eq_some_iff.mp h2
    have : d ++ ['/'] ++ file = d ++ '/' :: file := by simp
    rw [this, findLast_append _ _ _ h1]
    simp

theorem nativeLoop_eq (n : Nat) (s : Str) (h : s.count '\\' ≤ n) :
    nativeLoop '/' '\\' n s = s.map fun c => if c = '\\' then '/' else c := by
  induction n generalizing s with
  | zero =>
    have h0 : '\\' ∉ s := by
      rw [← List.count_eq_zero]; omega
    unfold nativeLoop
    symm
    rw [List.map_congr_left (g := id)]
    · simp
    · intro c hc
      rw [if_neg]; · rfl
      rintro rfl; exact h0 hc
  | succ n ih =>
    unfold nativeLoop
    split
    · rename_i hi
      rw [List.idxOf?_eq_none_iff] at hi
      symm
      rw [List.map_congr_left (g := id)]
      · simp
      · intro c hc
        rw [if_neg]; · rfl
        rintro rfl; exact hi hc
    · rename_i i hi
      rw [List.idxOf?_eq_some_iff] at hi
      obtain ⟨hlt, he, -⟩ := hi
      have hs : s = s.take i ++ '\\' :: s.drop (i + 1) := by
        have := List.take_append_drop i s
        rw [List.drop_eq_getElem_cons hlt, he] at this
        exact this.symm
      have hs2 : s.set i '/' = s.take i ++ '/' :: s.drop (i + 1) := List.set_eq_take_append_cons_drop ▸ by simp [hlt]
      rw [ih]
      · rw [hs2]
        conv => rhs; rw [hs]
        simp
      · rw [hs2]
        rw [hs] at h
        simp [List.count_append, List.count_cons] at h ⊢
        omega

/-- C49. After `SetPath` the stored path is the argument with every `\` replaced by `/`. -/
theorem C49_native_path (s : Str) :
    (SetPath (some s)).full = s.map fun c => if c = '\\' then '/' else c := by
  unfold SetPath makePathNative
  by_cases h : s = []
  · simp [h]
  · simp only [if_neg h]
    exact nativeLoop_eq _ _ List.count_le_length

/-- C49, in the words of the property: no foreign separator remains, the length is unchanged, and every
position that did not hold a foreign separator holds the same character. -/
theorem C49_no_foreign_separator (s : Str) :
    '\\' ∉ (SetPath (some s)).full ∧ (SetPath (some s)).full.length = s.length ∧
    ∀ (i : Nat) (c : Char), s[i]? = some c → (SetPath (some s)).full[i]? = some (if c = '\\' then '/' else c) := by
  rw [C49_native_path]
  refine ⟨?_, by simp, ?_⟩
  · intro h
    obtain ⟨c, -, hc⟩ := List.mem_map.mp h
    split at hc
    · revert hc; decide
    · contradiction
  · intro i c h
    rw [List.getElem?_map, h]; rfl

example : (SetPath (some "C:\\a\\b/c.igs".toList)).full = "C:/a/b/c.igs".toList := by decide +kernel

/-! ### C48 -/

/-- The three queries. -/
inductive PathQuery
  | baseName | extension | fileName
  deriving DecidableEq

/-- One query on the object, with the updated caches. -/
def ask (p : FilePath) : PathQuery → Res (FilePath × Option Str)
  | .baseName => GetBaseName p
  | .extension => GetExtension p
  | .fileName => GetFileName p

/-- Queries one after the other. -/
def askAll (p : FilePath) : List PathQuery → Res (FilePath × List (Option Str))
  | [] => .ok (p, [])
  | q :: qs => (ask p q).bind fun (p, a) => (askAll p qs).bind fun (p, as) => .ok (p, a :: as)

/-- The answer the property requires. -/
def answer (base : Str) (ext : Option Str) : PathQuery → Option Str
  | .baseName => some base
  | .extension => ext
  | .fileName => some (Spec.fileName base ext)

/-- What the two parsing queries compute when the caches are empty. -/
structure Parsed (path base : Str) (ext : Option Str) : Prop where
  ne : path ≠ []
  hb : ∀ p : FilePath, p.full = path → p.base = [] → (p.ext = [] ∨ some p.ext = ext) →
    ∃ e', (e' = [] ∨ some e' = ext) ∧ GetBaseName p = .ok ({ p with base := base, ext := e' }, some base)
  he : ∀ p : FilePath, p.full = path → p.ext = [] →
    GetExtension p = .ok ({ p with ext := ext.getD [] }, ext)

/-- The caches are empty or right. -/
structure CacheOk (path base : Str) (ext : Option Str) (p : FilePath) : Prop where
  hfull : p.full = path
  hbase : p.base = [] ∨ p.base = base
  hext : p.ext = [] ∨ some p.ext = ext
  hfile : p.filename = [] ∨ p.filename = Spec.fileName base ext

theorem ask_base {path base : Str} {ext : Option Str} {p : FilePath} (P : Parsed path base ext)
    (hc : CacheOk path base ext p) : ∃ p', GetBaseName p = .ok (p', some base) ∧ CacheOk path base ext p' := by
  by_cases h : p.base = []
  · obtain ⟨e', h1, h2⟩ := P.hb p hc.hfull h hc.hext
    exact ⟨_, h2, hc.hfull, .inr rfl, h1, hc.hfile⟩
  · have hb := hc.hbase.resolve_left h
    refine ⟨p, ?_, hc⟩
    unfold GetBaseName
    rw [if_neg (by rw [hc.hfull]; exact P.ne), if_pos h, hb]

theorem ask_ext {path base : Str} {ext : Option Str} {p : FilePath} (P : Parsed path base ext)
    (hf : p.full = path) (he : p.ext = [] ∨ some p.ext = ext) :
    ∃ e', GetExtension p = .ok ({ p with ext := e' }, ext) ∧ (e' = [] ∨ some e' = ext) := by
  by_cases h : p.ext = []
  · refine ⟨_, P.he p hf h, ?_⟩
    cases ext
    · left; rfl
    · right; rfl
  · have he := he.resolve_left h
    refine ⟨p.ext, ?_, .inr he⟩
    unfold GetExtension
    rw [if_neg (by rw [hf]; exact P.ne), if_pos h, he]

theorem ask_file {path base : Str} {ext : Option Str} {p : FilePath} (P : Parsed path base ext)
    (hc : CacheOk path base ext p) :
    ∃ p', GetFileName p = .ok (p', some (Spec.fileName base ext)) ∧ CacheOk path base ext p' := by
  by_cases h : p.filename = []
  · obtain ⟨p1, h1, hc1⟩ := ask_base P hc
    obtain ⟨e', h2, he'⟩ := ask_ext (p := { p1 with filename := base }) P hc1.hfull hc1.hext
    unfold GetFileName
    rw [if_neg (by rw [hc.hfull]; exact P.ne), if_neg (by simp [h]), h1]
    simp only [Res.bind, h2]
    cases ext with
    | none => exact ⟨_, rfl, hc1.hfull, hc1.hbase, he', .inr rfl⟩
    | some e => exact ⟨_, rfl, hc1.hfull, hc1.hbase, he', .inr rfl⟩
  · have hb := hc.hfile.resolve_left h
    refine ⟨p, ?_, hc⟩
    unfold GetFileName
    rw [if_neg (by rw [hc.hfull]; exact P.ne), if_pos h, hb]

theorem askAll_ok {path base : Str} {ext : Option Str} (P : Parsed path base ext) (qs : List PathQuery) :
    ∀ p, CacheOk path base ext p → ∃ p', askAll p qs = .ok (p', qs.map (answer base ext)) := by
  induction qs with
  | nil => intro p _; exact ⟨p, rfl⟩
  | cons q qs ih =>
    intro p hc
    have : ∃ p1, ask p q = .ok (p1, answer base ext q) ∧ CacheOk path base ext p1 := by
      cases q
      · exact ask_base P hc
      · obtain ⟨e', h1, h2⟩ := ask_ext P hc.hfull hc.hext
        exact ⟨_, h1, hc.hfull, hc.hbase, h2, hc.hfile⟩
      · exact ask_file P hc
    obtain ⟨p1, h1, hc1⟩ := this
    obtain ⟨p2, h2⟩ := ih p1 hc1
    refine ⟨p2, ?_⟩
    simp only [askAll, h1, Res.bind, h2, List.map_cons]

theorem substr_mid (a b c : Str) : substr (a ++ (b ++ c)) a.length b.length = b := by
  simp [substr]

/-- Parsing a path with a proper extension. -/
theorem parsed_dotted {path dir b e : Str} (h : Spec.PathParts path dir (b ++ '.' :: e)) (hb : b ≠ [])
    (he : '.' ∉ e) : Parsed path b (some e) := by
  have hs := afterSep_parts h
  obtain ⟨rfl, h1, h2⟩ := h
  have hd : findLast (dir ++ (b ++ '.' :: e)) '.' = some (dir.length + b.length) := by
    have := findLast_append (dir ++ b) e '.' he
    simpa using this
  have hbl : 0 < b.length := List.length_pos_iff.mpr hb
  have htail : substrFrom (dir ++ (b ++ '.' :: e)) (dir.length + b.length + 1) = .ok e := by
    unfold substrFrom
    rw [if_pos (by simp; omega)]
    congr 1
    have : dir ++ (b ++ '.' :: e) = (dir ++ b ++ ['.']) ++ e := by simp
    rw [this, List.drop_left' (by simp; omega)]
  refine ⟨by simp, ?_, ?_⟩
  · intro p hf hbase hext
    unfold GetBaseName
    rw [hf, if_neg (by simp), if_neg (by simp [hbase])]
    simp only [hd, hs, Option.getD_some]
    rw [if_pos (by omega), show dir.length + b.length - dir.length = b.length by omega, substr_mid]
    by_cases hx : p.ext = []
    · rw [if_pos hx, htail]
      exact ⟨e, .inr rfl, rfl⟩
    · rw [if_neg hx]
      exact ⟨p.ext, hext, rfl⟩
  · intro p hf hext
    unfold GetExtension
    rw [hf, if_neg (by simp), if_neg (by simp [hext])]
    simp only [hd, hs]
    rw [if_neg (by omega), htail]
    rfl

/-- Parsing a path whose file name has no extension although the path holds a dot. -/
theorem parsed_bare {path dir file : Str} (h : Spec.PathParts path dir file) (hne : path ≠ []) (d : Nat)
    (hd : (findLast path '.').getD path.length = d) (hle : d ≤ dir.length) : Parsed path file none := by
  have hs := afterSep_parts h
  obtain ⟨rfl, h1, h2⟩ := h
  have htail : substrFrom (dir ++ file) dir.length = .ok file := by
    unfold substrFrom
    rw [if_pos (by simp)]
    simp
  refine ⟨hne, ?_, ?_⟩
  · intro p hf hbase hext
    unfold GetBaseName
    rw [hf, if_neg hne, if_neg (by simp [hbase])]
    simp only [hd, hs]
    rw [if_neg (by omega), htail]
    exact ⟨p.ext, hext, rfl⟩
  · intro p hf hext
    have hp : { p with ext := (none : Option Str).getD [] } = p := by
      cases p; simp only [Option.getD_none] at *; rw [hext]
    rw [hp]
    unfold GetExtension
    rw [hf, if_neg hne, if_neg (by simp [hext])]
    split
    · rfl
    · rename_i i hi
      rw [hi] at hd
      simp only [Option.getD_some] at hd
      rw [if_pos (by rw [hs]; omega)]

theorem split_last {c : Char} {l : Str} (h : c ∈ l) : ∃ a b : Str, l = a ++ c :: b ∧ c ∉ b := by
  induction l using List.reverseRecOn with
  | nil => simp at h
  | append_singleton l d ih =>
    by_cases hc : d = c
    · exact ⟨l, [], by simp [hc], by simp⟩
    · have : c ∈ l := by
        rcases List.mem_append.mp h with h | h
        · exact h
        · exact absurd (List.mem_singleton.mp h).symm hc
      obtain ⟨a, b, h1, h2⟩ := ih this
      exact ⟨a, b ++ [d], by simp [h1], by simp [h2, Ne.symm hc]⟩

/-- The last dot of a path whose file name has none. -/
theorem findLast_dir {dir file : Str} (h : '.' ∉ file) (hd : '.' ∈ dir) :
    ∃ i, findLast (dir ++ file) '.' = some i ∧ i < dir.length := by
  obtain ⟨a, b, h1, h2⟩ := split_last hd
  refine ⟨a.length, ?_, by simp [h1]⟩
  have := findLast_append a (b ++ file) '.' (by simp [h2, h])
  rw [h1]
  simpa using this

theorem parsed_of {path base : Str} {ext : Option Str} (h : Spec.NameParts path base ext) (hne : path ≠ [])
    (hdot : '.' ∈ path ∨ base = []) : Parsed path base ext := by
  cases h with
  | dotted dir b e h1 h2 h3 => exact parsed_dotted h1 h2 h3
  | hidden dir r h1 h2 =>
    refine parsed_bare h1 hne dir.length ?_ (Nat.le_refl _)
    rw [h1.1, findLast_append _ _ _ h2]; rfl
  | plain dir file h1 h2 =>
    by_cases hd : '.' ∈ dir
    · obtain ⟨i, hi, hlt⟩ := findLast_dir h2 hd
      refine parsed_bare h1 hne i ?_ (by omega)
      rw [h1.1, hi]; rfl
    · have hf : base = [] := hdot.resolve_left (by rw [h1.1]; simp [hd, h2])
      refine parsed_bare h1 hne dir.length ?_ (Nat.le_refl _)
      rw [findLast_none _ _ (by rw [h1.1]; simp [hd, h2])]
      rw [h1.1, hf]; simp

/-- C48, queries. After `SetPath`, any sequence of base name, extension and file name queries returns the
parts of the path, in whatever order and however often they are asked; the file name is the base name, or
the base name, a dot and the extension. Partial: the path must hold a dot somewhere (or end in a
separator); for any other path the base name query throws (`C48_no_dot_throws`). -/
theorem C48_queries_partial (s base : Str) (ext : Option Str)
    (hparts : Spec.NameParts (SetPath (some s)).full base ext) (hne : s ≠ [])
    (hdot : '.' ∈ s ∨ base = []) (qs : List PathQuery) :
    ∃ p', askAll (SetPath (some s)) qs = .ok (p', qs.map (answer base ext)) := by
  have hfull := C49_native_path s
  refine askAll_ok (parsed_of hparts ?_ ?_) qs _ ⟨rfl, .inl rfl, .inl rfl, .inl rfl⟩
  · rw [hfull]; simpa using hne
  · rcases hdot with h | h
    · left
      rw [hfull]
      exact List.mem_map.mpr ⟨'.', h, by decide⟩
    · exact .inr h

/-- C48, the missing part: for a path without a dot that does not end in a separator, the base name query
and the file name query throw `std::out_of_range`. -/
theorem C48_no_dot_throws (s : Str) (hne : s ≠ []) (hdot : '.' ∉ s) (hsep : s.getLast? ≠ some '/')
    (hsep2 : s.getLast? ≠ some '\\') :
    GetBaseName (SetPath (some s)) = .exn ∧ GetFileName (SetPath (some s)) = .exn ∧
    GetExtension (SetPath (some s)) = .ok (SetPath (some s), none) := by
  have hfull := C49_native_path s
  have hdot' : '.' ∉ (SetPath (some s)).full := by
    rw [hfull]
    intro h
    obtain ⟨c, hc, he⟩ := List.mem_map.mp h
    split at he
    · revert he; decide
    · rw [he] at hc; exact hdot hc
  have hne' : (SetPath (some s)).full ≠ [] := by rw [hfull]; intro h; exact hne (List.map_eq_nil_iff.mp h)
  have hlast : (SetPath (some s)).full.getLast? ≠ some '/' := by
    rw [hfull, List.getLast?_map]
    intro h
    obtain ⟨c, hc, he⟩ := Option.map_eq_some_iff.mp h
    split at he
    · rename_i hq; rw [hq] at hc; exact hsep2 hc
    · rw [he] at hc; exact hsep hc
  have hlt : afterSep (SetPath (some s)).full < (SetPath (some s)).full.length := by
    generalize (SetPath (some s)).full = f at *
    obtain ⟨dir, c, rfl⟩ : ∃ d c, f = d ++ [c] := ⟨f.dropLast, f.getLast hne', (List.dropLast_concat_getLast hne').symm⟩
    have hc : c ≠ '/' := by simpa using hlast
    unfold afterSep
    split
    · simp
    · rename_i i hi
      by_cases hm : '/' ∈ dir ++ [c]
      · unfold findLast at hi
        obtain ⟨k, hk, rfl⟩ := Option.map_eq_some_iff.mp hi
        rw [List.idxOf?_eq_some_iff] at hk
        obtain ⟨h1, h2, -⟩ := hk
        have : k ≠ 0 := by
          rintro rfl
          simp at h2
          exact hc h2
        simp
        simp at h1
        omega
      · rw [findLast_none _ _ hm] at hi; cases hi
  have hb : GetBaseName (SetPath (some s)) = .exn := by
    unfold GetBaseName
    rw [if_neg hne', if_neg (by simp [SetPath]), findLast_none _ _ hdot']
    simp only [Option.getD_none]
    rw [if_pos hlt, if_pos (by rfl)]
    unfold substrFrom
    rw [if_neg (by omega)]
    rfl
  refine ⟨hb, ?_, ?_⟩
  · unfold GetFileName
    rw [if_neg hne', if_neg (by simp [SetPath]), hb]
    rfl
  · unfold GetExtension
    rw [if_neg hne', if_neg (by simp [SetPath]), findLast_none _ _ hdot']

/-- C48, `SetExtension`. On an object whose parts have not been queried yet, for a file name with a base
name and any extension, setting a new extension without dot or separator replaces the extension, and the
queries then report it. Partial: `C48_set_extension_after_query` and `C48_set_extension_leading_dot` show
what happens otherwise. -/
theorem C48_set_extension_partial (s dir b e x : Str)
    (hparts : Spec.PathParts (SetPath (some s)).full dir (b ++ '.' :: e)) (hb : b ≠ []) (he : '.' ∉ e)
    (hx : x ≠ []) (hdot : '.' ∉ x) (hsep : '/' ∉ x) :
    ∃ p, SetExtension (SetPath (some s)) x = .ok (p, true) ∧ p.full = dir ++ b ++ '.' :: x ∧
      ∀ qs, ∃ p', askAll p qs = .ok (p', qs.map (answer b (some x))) := by
  have P := parsed_dotted hparts hb he
  have h1 := P.he (SetPath (some s)) rfl rfl
  have hfull := hparts.1
  have hne : (SetPath (some s)).full ≠ [] := by rw [hfull]; simp
  obtain ⟨c, r, rfl⟩ := List.exists_cons_of_ne_nil hx
  have hc : c ≠ '.' := by intro h; apply hdot; simp [h]
  have hcut : (SetPath (some s)).full.take ((SetPath (some s)).full.length - e.length - 1) = dir ++ b := by
    rw [hfull]
    have : dir ++ (b ++ '.' :: e) = (dir ++ b) ++ '.' :: e := by simp
    rw [this]
    exact List.take_left' (by simp; omega)
  refine ⟨⟨dir ++ b ++ '.' :: c :: r, [], [], c :: r⟩, ?_, rfl, ?_⟩
  · unfold SetExtension
    rw [if_neg hne, if_pos (by rfl), h1]
    simp only [Res.bind, Option.getD_some, hcut]
    rw [if_pos hc]
    simp [SetPath]
  · intro qs
    have P2 : Parsed (dir ++ b ++ '.' :: c :: r) b (some (c :: r)) := by
      refine parsed_dotted (dir := dir) ⟨by simp, ?_, hparts.2.2⟩ hb hdot
      have := hparts.2.1
      simp only [List.mem_append, List.mem_cons, not_or] at this hsep ⊢
      exact ⟨this.1, by decide, hsep⟩
    exact askAll_ok P2 qs _ ⟨rfl, .inl rfl, .inr rfl, .inl rfl⟩

/-- C48: after any query that has cached the extension, `SetExtension` appends instead of replacing. -/
theorem C48_set_extension_after_query :
    ((GetExtension (SetPath (some "a.igs".toList))).bind fun (p, _) =>
      (SetExtension p "stp".toList).bind fun (p, _) => .ok p.full) = .ok "a.igs.stp".toList := by
  decide +kernel

/-- C48: an extension given with its dot is attached without the dot. -/
theorem C48_set_extension_leading_dot :
    ((SetExtension (SetPath (some "a.igs".toList)) ".stp".toList).bind fun (p, _) => .ok p.full)
      = .ok "astp".toList := by
  decide +kernel

/-- C48: `Append` returns false whenever it has changed the path. -/
theorem C48_append_reports_failure (p : FilePath) (sub : Str)
    (h : (Append p sub).1.full ≠ p.full) : (Append p sub).2 = false := by
  unfold Append at *
  by_cases h1 : sub = []
  · simp [h1] at h
  · by_cases h2 : makePathNative sub = ['/']
    · simp [h2] at h
    · simp [h1, h2]

example : Spec.NameParts (SetPath (some "d.x\\part.v2.igs".toList)).full "part.v2".toList (some "igs".toList) :=
  .dotted "d.x/".toList _ _ (by unfold Spec.PathParts; decide +kernel) (by decide) (by decide)

example : Spec.NameParts (SetPath (some "a.b/part".toList)).full "part".toList none :=
  .plain "a.b/".toList _ (by unfold Spec.PathParts; decide +kernel) (by decide)

example : ¬ (GetBaseName (SetPath (some "part".toList)) = .ok (SetPath (some "part".toList), some "part".toList)) := by
  rw [(C48_no_dot_throws "part".toList (by decide) (by decide) (by decide) (by decide)).1]
  intro h; cases h

end Iges.Props
