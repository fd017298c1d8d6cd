import Verif.Lemmas.Record
/-
C01, C02, C03: fixed columns and 80-column records.
-/
namespace Iges.Props
open Iges

/-- C01: an integer in the permitted range is written as exactly eight characters, and reading the
field that holds these characters gives the integer back, in every field position, whatever
surrounds it, whatever default is offered. -/
theorem C01_deInt_roundtrip (n : Int) (hlo : -9999999 ≤ n) (hhi : n ≤ 99999999) :
    ∃ s, FormatDEInt n = some s ∧ s.length = 8 ∧
      ∀ (before after : Str) (field : Nat) (var : Int) (dflt : Option Int),
        field ≤ 9 → before.length = 8 * field →
        DEItemToInt (before ++ s ++ after) field var dflt = (true, n) := by
  refine ⟨_, FormatDEInt_some n hlo hhi, FormatDEInt_length (FormatDEInt_some n hlo hhi), ?_⟩
  intro before after field var dflt hf hb
  have hlen := FormatDEInt_length (FormatDEInt_some n hlo hhi)
  apply DEItemToInt_of_column _ _ _ _ _ hf
  · rw [List.length_append, List.length_append, hlen, hb]; omega
  · rw [← hb, substr_mid _ _ _ _ hlen]
    exact intColumn_pad _ n

/-- C01: integers that do not fit eight columns are refused, and only those. -/
theorem C01_deInt_refused (n : Int) :
    FormatDEInt n = none ↔ (n > 99999999 ∨ n < -9999999) := by
  unfold FormatDEInt
  split <;> simp_all

example : FormatDEInt (-9999999) = some "-9999999".toList ∧ FormatDEInt 42 = some "      42".toList := by
  decide

/-- C02: reading a field succeeds with value `v` exactly when the column is blank and `v` is the
offered default, or the column is not blank and holds the integer `v`. -/
theorem C02_field_value (input : Str) (field : Nat) (var v : Int) (dflt : Option Int)
    (hf : field ≤ 9) (hl : 8 * field + 8 ≤ input.length) :
    DEItemToInt input field var dflt = (true, v) ↔
      (Spec.BlankColumn (substr input (8 * field) 8) ∧ dflt = some v) ∨
      Spec.IntColumn (substr input (8 * field) 8) v := by
  rw [DEItemToInt_eq _ _ _ _ hf hl]
  split
  · rename_i hb
    have hn : ¬ Spec.IntColumn (substr input (8 * field) 8) v := fun h => intColumn_not_blank h hb
    cases dflt <;> simp [hb, hn]
  · rename_i hb
    rw [scanCol_iff _ _, intColumn_dropBlank]
    · simp [hb]
    · refine Nat.le_trans ((List.dropWhile_sublist _).length_le) ?_
      simp [substr]; omega

/-- C02: a refused field leaves the caller's variable alone; a field number outside 0..9 or a
record too short for the field is always refused. -/
theorem C02_refused_keeps_var (input : Str) (field var : Int) (dflt : Option Int)
    (h : (DEItemToInt input field var dflt).1 = false) :
    DEItemToInt input field var dflt = (false, var) := by
  have : (DEItemToInt input field var dflt).2 = var := by
    revert h
    unfold DEItemToInt
    simp only []
    split
    · simp
    · split
      · simp
      · split
        · cases dflt <;> simp
        · split
          · simp
          · split
            · simp
            · split <;> simp
  exact Prod.ext h this

theorem C02_out_of_range_field (input : Str) (field var : Int) (dflt : Option Int)
    (h : field < 0 ∨ field > 9 ∨ (input.length : Int) < 8 * field + 8) :
    (DEItemToInt input field var dflt).1 = false := by
  unfold DEItemToInt
  by_cases h1 : field < 0 ∨ field > 9
  · simp [h1]
  · have h2 : input.length < 8 * field.toNat + 8 := by omega
    simp [h1, h2]

example : DEItemToInt "     17x      17".toList 1 0 none = (true, 17)
    ∧ DEItemToInt "     17x      17".toList 0 5 none = (false, 5)
    ∧ DEItemToInt "                ".toList 0 5 (some 9) = (true, 9) := by decide

/-- C03: a line is accepted exactly when, without its line-end characters, it is a well-formed
record, and then data, section letter and sequence number are the ones in the text. -/
theorem C03_record_iff (line : Str) (r : Record) :
    ReadIGESRecord line = some r ↔
      ∃ body, Spec.LineBody line body ∧ Spec.RecordText body r.data r.section_type r.index := by
  constructor
  · intro h
    unfold ReadIGESRecord at h
    simp only [] at h
    split at h
    · simp at h
    · rename_i hlen
      have hlen : (stripEol line).length = 80 := by simpa using hlen
      split at h
      · simp at h
      · rename_i sec tl hdrop
        split at h
        · simp at h
        · rename_i hsec
          have hsec : isSection sec = true := by simpa using hsec
          have htl : tl.length = 7 := by
            have := congrArg List.length hdrop
            simp [hlen] at this; omega
          split at h
          · simp at h
          · rename_i n hn
            split at h
            · simp at h
            · rename_i hpos
              simp only [Option.some.injEq] at h
              subst h
              refine ⟨stripEol line, (stripEol_iff line _ (by omega)).mp rfl, ?_, ?_, ?_, tl, htl, ?_, ?_⟩
              · simp [hlen]
              · exact (isSection_iff sec).mp hsec
              · simp only; omega
              · simp only []
                rw [← hdrop]; simp
              · simp only []
                have hl' : (stripEol line).set 72 ' ' = (stripEol line).take 72 ++ ' ' :: tl := by
                  have e : stripEol line = (stripEol line).take 72 ++ sec :: tl := by
                    rw [← hdrop]; simp
                  have ht : ((stripEol line).take 72).length = 72 := by simp [hlen]
                  conv => lhs; rw [e]
                  rw [List.set_append_right _ _ (by omega)]
                  simp [ht]
                have h9 : DEItemToInt ((stripEol line).set 72 ' ') ((9 : Nat) : Int) 0 none = (true, n) := hn
                rw [C02_field_value _ 9 _ _ _ (by omega) (by simp [hlen])] at h9
                have hcol : substr ((stripEol line).set 72 ' ') (8 * 9) 8 = ' ' :: tl := by
                  rw [hl']
                  have ht : ((stripEol line).take 72).length = 72 := by simp [hlen]
                  unfold substr
                  rw [List.drop_append_of_le_length (by omega)]
                  rw [List.drop_eq_nil_of_le (by omega)]
                  simp only [List.nil_append]
                  apply List.take_of_length_le; simp [htl]
                rw [hcol] at h9
                rcases h9 with h9 | h9
                · simp at h9
                · have := (intColumn_dropBlank (' ' :: tl) n).mpr h9
                  have e : (' ' :: tl).dropWhile (· == ' ') = tl.dropWhile (· == ' ') := by simp
                  rw [e] at this
                  exact (intColumn_dropBlank tl n).mp this
  · rintro ⟨body, hbody, hdata, hsec, hpos, num, hnum, hb, hcol⟩
    have hlen : body.length = 80 := by rw [hb]; simp [hdata, hnum]
    have hs : stripEol line = body := (stripEol_iff line body (by omega)).mpr hbody
    unfold ReadIGESRecord
    simp only [hs, hlen]
    have hd : body.drop 72 = r.section_type :: num := by
      rw [hb, List.drop_append_of_le_length (by omega), List.drop_eq_nil_of_le (by omega)]; rfl
    have ht : body.take 72 = r.data := by
      rw [hb, List.take_append_of_le_length (by omega), List.take_of_length_le (by omega)]
    simp only [hd, (isSection_iff _).mpr hsec]
    have hset : body.set 72 ' ' = r.data ++ ' ' :: num := by
      rw [hb, List.set_append_right _ _ (by omega)]
      simp [hdata]
    have h9 : DEItemToInt (body.set 72 ' ') 9 0 none = (true, r.index) := by
      apply DEItemToInt_of_column _ 9 _ _ _ (by omega) (by simp [hlen])
      have : substr (body.set 72 ' ') (8 * 9) 8 = ' ' :: num := by
        rw [hset]
        unfold substr
        rw [List.drop_append_of_le_length (by omega), List.drop_eq_nil_of_le (by omega)]
        simp only [List.nil_append]
        apply List.take_of_length_le; simp [hnum]
      rw [this]
      rw [← intColumn_dropBlank]
      have e : (' ' :: num).dropWhile (· == ' ') = num.dropWhile (· == ' ') := by simp
      rw [e]
      exact (intColumn_dropBlank num _).mpr hcol
    rw [h9]
    have : ¬ r.index ≤ 0 := by omega
    simp [this, ht]

/-- C03 in the shape used elsewhere: 72 data columns, a section letter and a seven column
number, followed by a newline, are read back as written. -/
theorem C03_emitted_line_accepted (data : Str) (sec : Char) (num : Str) (seq : Int) (eol : Str)
    (hd : data.length = 72) (hs : sec ∈ ['F', 'S', 'G', 'D', 'P', 'T']) (hn : num.length = 7)
    (hc : Spec.IntColumn num seq) (hpos : 0 < seq) (he : ∀ c ∈ eol, Spec.Eol c)
    (hlast : ∀ c, num.getLast? = some c → ¬ Spec.Eol c) :
    ReadIGESRecord (data ++ sec :: num ++ eol) = some ⟨data, sec, seq⟩ := by
  rw [C03_record_iff]
  refine ⟨data ++ sec :: num, ⟨eol, by simp, he, ?_⟩, hd, hs, hpos, num, hn, rfl, hc⟩
  intro c hc
  apply hlast
  have hne : num ≠ [] := by intro h; simp [h] at hn
  obtain ⟨x, t, rfl⟩ := List.exists_cons_of_ne_nil hne
  simpa [List.getLast?_append, List.getLast?_cons_cons] using hc

example : ReadIGESRecord (List.replicate 72 'x' ++ "G      3\r\n".toList)
    = some ⟨List.replicate 72 'x', 'G', 3⟩ := by decide
example : ReadIGESRecord (List.replicate 72 'x' ++ "G      0\r\n".toList) = none
    ∧ ReadIGESRecord (List.replicate 72 'x' ++ "Q      3\r\n".toList) = none
    ∧ ReadIGESRecord (List.replicate 71 'x' ++ "G      3\r\n".toList) = none := by decide

end Iges.Props
