import Verif.Model.Directory
import Verif.Props.Record
import Verif.Lemmas.Gather
import Verif.Spec.Directory
namespace Iges

theorem flatten_split {α} (cols : List (List α)) (k : Nat) (hk : k < cols.length) :
    cols.flatten = (cols.take k).flatten ++ cols[k] ++ (cols.drop (k + 1)).flatten := by
  conv => lhs; rw [← List.take_append_drop k cols, List.drop_eq_getElem_cons hk]
  simp only [List.flatten_append, List.flatten_cons, List.append_assoc]

theorem flatten_len {α} (cols : List (List α)) (w : Nat) (h : ∀ c ∈ cols, c.length = w) :
    cols.flatten.length = w * cols.length := by
  induction cols with
  | nil => simp
  | cons c cs ih =>
    rw [List.flatten_cons, List.length_append, ih (fun d hd => h d (by simp [hd])), h c (by simp)]
    simp [Nat.mul_add]; omega

/-- Reading field `k` of a record made of eight-character columns. -/
theorem deInt_cols (cols : List Str) (k : Nat) (rest : Str) (v : Int) (d : Option Int)
    (h : ∀ c ∈ cols, c.length = 8) (hk : k < cols.length) (hk9 : k ≤ 9)
    (hv : FormatDEInt v = some cols[k]) : deInt (cols.flatten ++ rest) k d = some v := by
  obtain ⟨h1, h2⟩ := FormatDEInt_range hv
  obtain ⟨s, e1, e2, e3⟩ := Props.C01_deInt_roundtrip v h1 h2
  rw [hv] at e1
  cases e1
  have hlen : (cols.take k).flatten.length = 8 * k := by
    rw [flatten_len _ 8 (fun c hc => h c (List.mem_of_mem_take hc))]
    simp; omega
  have := e3 (cols.take k).flatten ((cols.drop (k + 1)).flatten ++ rest) k 0 d hk9 hlen
  rw [show (cols.take k).flatten ++ cols[k] ++ ((cols.drop (k + 1)).flatten ++ rest) = cols.flatten ++ rest by
    rw [flatten_split cols k hk]; simp [List.append_assoc]] at this
  unfold deInt
  rw [this]

theorem DEItemToStr_cols (cols : List Str) (k : Nat) (rest : Str)
    (h : ∀ c ∈ cols, c.length = 8) (hk : k < cols.length) (hk9 : k ≤ 9) :
    DEItemToStr (cols.flatten ++ rest) k = some (cols[k].dropWhile (· == ' ')) := by
  have hlen : (cols.take k).flatten.length = 8 * k := by
    rw [flatten_len _ 8 (fun c hc => h c (List.mem_of_mem_take hc))]
    simp; omega
  have hc := h cols[k] (List.getElem_mem hk)
  unfold DEItemToStr
  have h1 : ¬ ((k : Int) < 0 ∨ (k : Int) > 9) := by omega
  rw [if_neg h1]
  simp only [Int.toNat_natCast]
  have hl : ¬ (cols.flatten ++ rest).length < 8 * k + 8 := by
    rw [flatten_split cols k hk]; simp [hlen, hc] <;> omega
  rw [if_neg hl]
  congr 2
  rw [flatten_split cols k hk, List.append_assoc, ← hlen]
  exact substr_mid _ _ _ _ hc

theorem seqColumn_some {n : Int} (c : Char) (h0 : 0 ≤ n) (h1 : n ≤ 9999999) :
    seqColumn c n = some (c :: Spec.rjust 7 n) := by
  unfold seqColumn
  have hf := FormatDEInt_some n (by omega) (by omega)
  have h8 := FormatDEInt_rjust hf
  rw [hf, h8]
  simp only
  rw [if_pos (rjust8_head n h0 h1)]
  rw [← h8, FormatDEInt_set c hf h0 h1]

/-- A line of nine columns, a letter and a sequence number is a record. -/
theorem record_cols (cols : List Str) (c : Char) (n : Int) (h : ∀ c ∈ cols, c.length = 8)
    (hl : cols.length = 9) (hc : c ∈ ['F', 'S', 'G', 'D', 'P', 'T']) (h0 : 0 < n) (h1 : n ≤ 9999999) :
    ReadIGESRecord (cols.flatten ++ c :: Spec.rjust 7 n) = some ⟨cols.flatten, c, n⟩ := by
  rw [Props.C03_record_iff]
  have hle := intStr_length_le7 n (by omega) h1
  refine ⟨_, ⟨[], by simp, by simp, ?_⟩, ?_, hc, h0, Spec.rjust 7 n, rjust_length 7 n hle, rfl, ?_⟩
  · intro d hd
    have hmem : d ∈ Spec.rjust 7 n := by
      have hne : Spec.rjust 7 n ≠ [] := by
        intro e; have := rjust_length 7 n hle; rw [e] at this; simp at this
      rw [List.getLast?_append, List.getLast?_cons_of_ne_nil hne] at hd
      obtain ⟨y, hy⟩ := List.getLast?_isSome.mpr hne |> Option.isSome_iff_exists.mp
      rw [hy] at hd; simp at hd; subst hd
      exact List.mem_of_getLast? hy
    unfold Spec.rjust at hmem
    rcases List.mem_append.mp hmem with hm | hm
    · rw [List.eq_of_mem_replicate hm]; unfold Spec.Eol; decide
    · rw [decimal_eq] at hm
      rcases intStr_chars hm with hd | rfl
      · intro he
        rcases he with rfl | rfl | rfl <;> exact absurd hd (by decide)
      · unfold Spec.Eol; decide
  · rw [flatten_len cols 8 h, hl]
  · unfold Spec.rjust; rw [decimal_eq]; exact intColumn_pad _ n

end Iges
