import Verif.Lemmas.Utils
import Verif.Lemmas.Np

/-! # Properties C19 – C23 (`utils.py`) -/

set_option autoImplicit false

namespace Lattpy

/-! ## C19 lookup table -/

/-- C19 (restricted to arrays with at most `2 ^ bits` distinct values, 256 for the default
index type): the values are strictly increasing, the index array has the length of the input
and `values[indices] == array`. -/
theorem C19_lookup_table_lossless_partial {α : Type*} [LinearOrder α] (array : List α) (bits : ℕ)
    (hsize : array.dedup.length ≤ 2 ^ bits) :
    let r := createLookupTable array bits
    r.1.Pairwise (· < ·) ∧ (∀ x, x ∈ r.1 ↔ x ∈ array) ∧ r.2.length = array.length ∧
      r.2.map (fun k => r.1[k]?) = array.map some := by
  refine ⟨npUnique_pairwise_lt _, fun x => mem_npUnique, lookup_length _ _, ?_⟩
  apply List.ext_getElem?
  intro i
  rw [List.getElem?_map, List.getElem?_map]
  by_cases hi : i < array.length
  · obtain ⟨j, hj, hr⟩ := lookup_getElem? array bits i array[i] (by simp)
    rw [hr, List.getElem?_eq_getElem hi, lookup_values]
    have hlt : j < (npUnique array).length := by
      by_contra hc
      simp [List.getElem?_eq_none (not_lt.1 hc)] at hj
    have hlen : (npUnique array).length = array.dedup.length := by simp [npUnique]
    simp only [Option.map_some]
    rw [Nat.mod_eq_of_lt (by omega), hj]
  · have h2 := lookup_length array bits
    rw [List.getElem?_eq_none (by omega), List.getElem?_eq_none (by omega)]
    rfl

example : ([3, 1, 3, 2] : List ℕ).dedup.length ≤ 2 ^ 8 := by decide
example : createLookupTable [3, 1, 3, 2] = ([1, 2, 3], [2, 0, 2, 1]) := by decide +kernel

/-- C19 fails for 257 distinct values with the default 8-bit index type: the last value is
looked up as the first. -/
theorem C19_lookup_table_fails :
    ∃ array : List ℕ, ¬ ((createLookupTable array).2.map (fun k => (createLookupTable array).1[k]?)
      = array.map some) := by
  refine ⟨List.range 257, fun h => ?_⟩
  have huniq : npUnique (List.range 257) = List.range 257 :=
    npUnique_eq (List.pairwise_lt_range) (fun x => Iff.rfl)
  obtain ⟨j, hj, hr⟩ := lookup_getElem? (List.range 257) 8 256 256 (by simp)
  rw [huniq] at hj
  have hj' : j = 256 := by
    rw [List.getElem?_eq_some_iff] at hj
    obtain ⟨h1, h2⟩ := hj
    simpa using h2
  subst hj'
  have h2 := congrArg (fun l => l[256]?) h
  simp only [List.getElem?_map, hr, lookup_values, huniq] at h2
  simp at h2

/-! ## C20 min_dtype -/

/-- C20, capacity: for integers within the 63-bit range a type is selected, it is a NumPy
integer type and it holds every value; in signed mode also the negatives; and it is unsigned
exactly when no sign is needed. -/
theorem C20_min_dtype_capacity (a : List ℤ) (ha : a ≠ []) (signed : Bool)
    (hrange : ∀ x ∈ a, |x| < 2 ^ 63) :
    ∃ t, minDtype a signed = some t ∧ t ∈ numpyIntTypes ∧ (∀ x ∈ a, t.holds x) ∧
      (signed = true → ∀ x ∈ a, t.holds (-x)) ∧
      (t.signed = true ↔ signed = true ∨ ∃ x ∈ a, x < 0) := by
  cases signed with
  | true =>
    set m := imax (a.map fun x => |x|) with hm
    have hle : ∀ x ∈ a, |x| ≤ m := fun x hx => le_imax (List.mem_map.2 ⟨x, hx, rfl⟩)
    have hmem : m ∈ a.map fun x => |x| := imax_mem (by simpa using ha)
    obtain ⟨y, hy, hym⟩ := List.mem_map.1 hmem
    have h0 : 0 ≤ m := by rw [← hym]; exact abs_nonneg _
    have hm63 : m < 2 ^ 63 := by rw [← hym]; exact hrange y hy
    obtain ⟨t, ht⟩ := minScalarType_isSome (a := -m - 1) (by omega) (by omega)
    obtain ⟨h1, h2, h3, -⟩ := minScalarType_spec ht
    refine ⟨t, by simp [minDtype, ← hm, ht], h1, ?_, ?_, ?_⟩
    · intro x hx
      have := abs_le.1 (hle x hx)
      have hs : t.signed = true := by rw [h2]; simp; omega
      simp only [IntType.holds, IntType.lo, IntType.hi, hs, if_true] at h3 ⊢
      omega
    · intro _ x hx
      have := abs_le.1 (hle x hx)
      have hs : t.signed = true := by rw [h2]; simp; omega
      simp only [IntType.holds, IntType.lo, IntType.hi, hs, if_true] at h3 ⊢
      omega
    · simp [h2]; omega
  | false =>
    have hmin : ∀ x ∈ a, imin a ≤ x := fun x hx => imin_le hx
    have hmax : ∀ x ∈ a, x ≤ imax a := fun x hx => le_imax hx
    have r1 := abs_lt.1 (hrange _ (imin_mem ha))
    have r2 := abs_lt.1 (hrange _ (imax_mem ha))
    by_cases hneg : imin a < 0
    · have hex : ∃ x ∈ a, x < 0 := ⟨_, imin_mem ha, hneg⟩
      by_cases hc : |imin a| ≤ imax a
      · obtain ⟨t, ht⟩ := minScalarType_isSome (a := -imax a - 1) (by omega) (by omega)
        obtain ⟨h1, h2, h3, -⟩ := minScalarType_spec ht
        have := abs_le.1 hc
        have hs : t.signed = true := by rw [h2]; simp; omega
        refine ⟨t, by simp [minDtype, hneg, hc, ht], h1, ?_, by simp, by simp [hs, hex]⟩
        intro x hx
        have := hmin x hx
        have := hmax x hx
        simp only [IntType.holds, IntType.lo, IntType.hi, hs, if_true] at h3 ⊢
        omega
      · obtain ⟨t, ht⟩ := minScalarType_isSome (a := imin a) (by omega) (by omega)
        obtain ⟨h1, h2, h3, -⟩ := minScalarType_spec ht
        have hs : t.signed = true := by rw [h2]; simp [hneg]
        refine ⟨t, by simp [minDtype, hneg, hc, ht], h1, ?_, by simp, by simp [hs, hex]⟩
        intro x hx
        have := hmin x hx
        have := hmax x hx
        rw [abs_of_neg hneg] at hc
        simp only [IntType.holds, IntType.lo, IntType.hi, hs, if_true] at h3 ⊢
        omega
    · have hnn := not_lt.1 hneg
      have h0 : 0 ≤ imax a := le_trans hnn (hmax _ (imin_mem ha))
      obtain ⟨t, ht⟩ := minScalarType_isSome (a := imax a) (by omega) (by omega)
      obtain ⟨h1, h2, h3, -⟩ := minScalarType_spec ht
      have hs : t.signed = false := by rw [h2]; simp [h0]
      refine ⟨t, by simp [minDtype, hneg, ht], h1, ?_, by simp, ?_⟩
      · intro x hx
        have := hmin x hx
        have := hmax x hx
        simp only [IntType.holds, IntType.lo, IntType.hi, hs] at h3 ⊢
        simp at h3 ⊢
        omega
      · simp only [hs]
        simp
        intro x hx
        exact le_trans hnn (hmin x hx)

example : ∀ x ∈ ([-200, 130, 7] : List ℤ), |x| < 2 ^ 63 := by decide
example : minDtype [-200, 130, 7] true = some ⟨true, 16⟩ := by decide +kernel

/-- C20, minimality in unsigned mode: no NumPy integer type with fewer bits holds all values. -/
theorem C20_min_dtype_minimal_unsigned (a : List ℤ) (ha : a ≠ []) (t : IntType)
    (h : minDtype a false = some t) (t' : IntType) (ht' : t' ∈ numpyIntTypes)
    (hold : ∀ x ∈ a, t'.holds x) : t.bits ≤ t'.bits := by
  have hmax := hold _ (imax_mem ha)
  have hmin := hold _ (imin_mem ha)
  by_cases hneg : imin a < 0
  · have hs' : t'.signed = true := by
      by_contra hc
      simp only [Bool.not_eq_true] at hc
      simp [IntType.holds, IntType.lo, hc] at hmin
      omega
    by_cases hc : |imin a| ≤ imax a
    · have h' : minScalarType (-imax a - 1) = some t := by simpa [minDtype, hneg, hc] using h
      obtain ⟨-, h2, -, h4⟩ := minScalarType_spec h'
      have := abs_le.1 hc
      refine h4 t' ht' ?_ ?_
      · rw [hs', h2]; simp; omega
      · simp only [IntType.holds, IntType.lo, IntType.hi, hs', if_true] at hmax ⊢
        omega
    · have h' : minScalarType (imin a) = some t := by simpa [minDtype, hneg, hc] using h
      obtain ⟨-, h2, -, h4⟩ := minScalarType_spec h'
      exact h4 t' ht' (by rw [hs', h2]; simp [hneg]) hmin
  · have h' : minScalarType (imax a) = some t := by simpa [minDtype, hneg] using h
    obtain ⟨-, h2, -, h4⟩ := minScalarType_spec h'
    have h0 : 0 ≤ imax a := le_trans (not_lt.1 hneg) (imin_le (imax_mem ha))
    have hts : t.signed = false := by rw [h2]; simp [h0]
    refine h4 ⟨false, t'.bits⟩ ?_ (by simp [hts]) ?_
    · simp only [numpyIntTypes, List.mem_cons, List.not_mem_nil, or_false] at ht' ⊢
      rcases ht' with rfl | rfl | rfl | rfl | rfl | rfl | rfl | rfl <;> simp
    · simp only [numpyIntTypes, List.mem_cons, List.not_mem_nil, or_false] at ht'
      rcases ht' with rfl | rfl | rfl | rfl | rfl | rfl | rfl | rfl <;>
        simp [IntType.holds, IntType.lo, IntType.hi] at hmax ⊢ <;> omega

example : minDtype [0, 255] false = some ⟨false, 8⟩ := by decide +kernel

/-- C20, minimality in signed mode, restricted to arrays whose largest magnitude is attained
by a non-negative entry: no smaller signed type holds the values. -/
theorem C20_min_dtype_minimal_signed_partial (a : List ℤ) (t : IntType)
    (h : minDtype a true = some t) (m : ℤ) (hm : m ∈ a) (hdom : ∀ x ∈ a, |x| ≤ m)
    (t' : IntType) (ht' : t' ∈ numpyIntTypes) (hs : t'.signed = true)
    (hold : ∀ x ∈ a, t'.holds x) : t.bits ≤ t'.bits := by
  have hm0 : 0 ≤ m := le_trans (abs_nonneg _) (hdom m hm)
  have hmax : imax (a.map fun x => |x|) = m := by
    apply le_antisymm
    · have hne : a.map (fun x => |x|) ≠ [] := by
        intro hc
        simp at hc
        simp [hc] at hm
      obtain ⟨y, hy, hy'⟩ := List.mem_map.1 (imax_mem hne)
      rw [← hy']; exact hdom y hy
    · have : |m| ∈ a.map fun x => |x| := List.mem_map.2 ⟨m, hm, rfl⟩
      simpa [abs_of_nonneg hm0] using le_imax this
  have h' : minScalarType (-m - 1) = some t := by simpa [minDtype, hmax] using h
  obtain ⟨-, h2, -, h4⟩ := minScalarType_spec h'
  have := hold m hm
  refine h4 t' ht' ?_ ?_
  · rw [hs, h2]; simp; omega
  · simp only [IntType.holds, IntType.lo, IntType.hi, hs, if_true] at this ⊢
    omega

example : (130 : ℤ) ∈ [-20, 130] ∧ ∀ x ∈ ([-20, 130] : List ℤ), |x| ≤ 130 := by decide

/-- C20, minimality fails in signed mode: for `[-128]` the 16-bit type is chosen although
`int8` holds the value. -/
theorem C20_min_dtype_minimal_fails :
    minDtype [-128] true = some ⟨true, 16⟩ ∧ (⟨true, 8⟩ : IntType) ∈ numpyIntTypes ∧
      ∀ x ∈ ([-128] : List ℤ), (⟨true, 8⟩ : IntType).holds x := by
  decide +kernel

/-! ## C21 chain -/

/-- C21: an open chain has `len - 1` pairs, the `i`-th of which is `(items[i], items[i+1])`. -/
theorem C21_chain_open {α : Type*} (items : List α) :
    ∃ r, chain items = .ok r ∧ r = items.zip items.tail ∧ r.length = items.length - 1 := by
  refine ⟨_, rfl, ?_, ?_⟩
  · apply chain_pairs_eq
  · rw [chain_pairs_eq]; simp

/-- C21: a closed chain of a non-empty sequence adds the pair (last, first); every item occurs
exactly once as first and once as second member, in order. -/
theorem C21_chain_cycle {α : Type*} (x : α) (xs : List α) :
    ∃ r, chain (x :: xs) true = .ok r ∧ r.map Prod.fst = x :: xs ∧ r.map Prod.snd = xs ++ [x] := by
  refine ⟨(x :: xs).zip xs ++ [((x :: xs).getLast (by simp), x)], ?_, ?_, ?_⟩
  · simp only [chain, if_true]
    rw [chain_pairs_eq]
    simp [List.getLast?_eq_some_getLast]
  · rw [List.map_append, map_fst_zip_cons _ _ (by simp)]
    simpa using List.dropLast_append_getLast (l := x :: xs) (by simp)
  · rw [List.map_append, List.map_snd_zip]
    · simp
    · simp

/-- C21: a closed chain of an empty sequence raises `IndexError`. -/
theorem C21_chain_cycle_empty {α : Type*} : chain ([] : List α) true = .error .index := rfl

example : chain [1, 2, 3] true = .ok [(1, 2), (2, 3), (3, 1)] := by rfl

/-! ## C22 frmt_num -/

/-- C22: the printed value times `div ^ p`, `p` the position of the printed prefix, is the
input; below the largest prefix the magnitude is smaller than `div`, and above the smallest
it is at least one. -/
theorem C22_frmt_num {K : Type*} [Field K] [LinearOrder K] [IsStrictOrderedRing K] (num div : K)
    (hdiv : 0 < div) :
    ∃ p, ["", "k", "M", "G", "T", "P", "E", "Z", "Y"][p]? = some (frmtNum num div).2 ∧
      (frmtNum num div).1 * div ^ p = num ∧ (p < 8 → |(frmtNum num div).1| < div) ∧
      (0 < p → 1 ≤ |(frmtNum num div).1|) := by
  obtain ⟨p, h1, h2, h3, h4⟩ := frmtNum_spec div hdiv frmtPrefixes num
  exact ⟨p, h1, h2, h3, h4⟩

example : frmtNum (1234567 : ℚ) 1000 = (1234567 / 1000000, "M") := by decide +kernel

/-- C22 for `frmt_bytes`: the binary multiples of a byte, the printed value times the power of
1024 of the unit is the number of bytes. -/
theorem C22_frmt_bytes {K : Type*} [Field K] [LinearOrder K] [IsStrictOrderedRing K] (num : K) :
    ∃ p, ["iB", "kiB", "MiB", "GiB", "TiB", "PiB", "EiB", "ZiB", "YiB"][p]? =
        some (frmtBytes num).2 ∧
      (frmtBytes num).1 * 1024 ^ p = num ∧ (p < 8 → |(frmtBytes num).1| < 1024) ∧
      (0 < p → 1 ≤ |(frmtBytes num).1|) := by
  obtain ⟨p, h1, h2, h3, h4⟩ := C22_frmt_num num 1024 (by norm_num)
  refine ⟨p, ?_, h2, h3, h4⟩
  have : (frmtBytes num).2 = (frmtNum num 1024).2 ++ "iB" := rfl
  rw [this]
  have h5 := congrArg (Option.map (· ++ "iB")) h1
  rw [← List.getElem?_map] at h5
  exact h5

example : frmtBytes (3145728 : ℚ) = (3, "MiB") := by decide +kernel

/-- C22 for the rounded number of the text: times `div ^ p` it is the input up to half of the last
printed digit, and above the smallest prefix it is at least one.  Its magnitude does not exceed
`div` if `div` itself can be printed with `dec` decimals (it can reach it, `C22_printed_fails`). -/
theorem C22_printed_partial {K : Type*} [Field K] [LinearOrder K] [IsStrictOrderedRing K]
    [FloorRing K] (num div : K) (dec : ℕ) (unit : String) (hdiv : 0 < div) :
    ∃ p, ["", "k", "M", "G", "T", "P", "E", "Z", "Y"][p]?.map (· ++ unit) =
        some (frmtNumText num dec unit div).2 ∧
      |(frmtNumText num dec unit div).1 * div ^ p - num| ≤ div ^ p / (2 * 10 ^ dec) ∧
      (0 < p → 1 ≤ |(frmtNumText num dec unit div).1|) ∧
      (p < 8 → (∃ z : ℤ, div = z / 10 ^ dec) → |(frmtNumText num dec unit div).1| ≤ div) := by
  obtain ⟨p, h1, h2, h3, h4⟩ := C22_frmt_num num div hdiv
  have e1 : (frmtNumText num dec unit div).1 = npRound dec (frmtNum num div).1 := rfl
  have e2 : (frmtNumText num dec unit div).2 = (frmtNum num div).2 ++ unit := rfl
  rw [e1, e2]
  generalize (frmtNum num div).1 = v at *
  have hneg : ∀ z : ℤ, npRound dec (-((z : K) / 10 ^ dec)) = -((z : K) / 10 ^ dec) := fun z => by
    have := npRound_of_int (K := K) dec (-z)
    rwa [Int.cast_neg, neg_div] at this
  refine ⟨p, by rw [h1]; rfl, ?_, fun hp => ?_, fun hp ⟨z, hz⟩ => ?_⟩
  · have h5 := abs_npRound_sub_le dec v
    have hpos : 0 < div ^ p := pow_pos hdiv p
    rw [← h2, ← sub_mul, abs_mul, abs_of_pos hpos, mul_comm]
    calc div ^ p * |npRound dec v - v| ≤ div ^ p * (1 / 2 / 10 ^ dec) :=
          mul_le_mul_of_nonneg_left h5 hpos.le
      _ = div ^ p / (2 * 10 ^ dec) := by rw [div_div, mul_one_div]
  · have one : (1 : K) = ((10 ^ dec : ℤ) : K) / 10 ^ dec := by
      push_cast
      rw [div_self (by positivity)]
    rcases le_abs.1 (h4 hp) with h | h
    · have h5 := npRound_mono (n := dec) h
      rw [one, npRound_of_int, ← one] at h5
      exact h5.trans (le_abs_self _)
    · have h5 := npRound_mono (n := dec) (le_neg.1 h)
      rw [one, hneg, ← one] at h5
      exact (le_neg.1 h5).trans (neg_le_abs _)
  · obtain ⟨h5, h6⟩ := abs_lt.1 (h3 hp)
    have h7 := npRound_mono (n := dec) h6.le
    have h8 := npRound_mono (n := dec) h5.le
    rw [hz, npRound_of_int, ← hz] at h7
    rw [hz, hneg, ← hz] at h8
    exact abs_le.2 ⟨h8, h7⟩

example : frmtNumText (1234567 : ℚ) 1 "B" 1000 = (12 / 10, "MB") := by decide +kernel

/-- C22 fails for the rounded number: the prefix is chosen before rounding, so that 999.96 is printed
as `1000.0` and 1048575 bytes as `1024.0kiB`. -/
theorem C22_printed_fails :
    frmtNumText (99996 / 100 : ℚ) 1 "" 1000 = (1000, "") ∧
    frmtNumText (1048575 : ℚ) 1 "iB" 1024 = (1024, "kiB") := by
  decide +kernel

/-! ## C23 errors -/

/-- C23 (restricted to the three classes that pass a hint): `str` yields message and hint. -/
theorem C23_error_str_partial (e : ConfigError) (he : e = .notAnalyzed ∨ e = .noConnections ∨ e = .notBuilt) :
    ∃ msg hint, e.args = [msg, hint] ∧ e.str = .ok (msg ++ " (" ++ hint ++ ")") := by
  rcases he with rfl | rfl | rfl <;> exact ⟨_, _, rfl, by decide⟩

/-- C23: an error created with a message and an empty hint is displayed as the message alone, with
any other hint as message and hint; any other number of arguments cannot be displayed. -/
theorem C23_error_str_base :
    (∀ msg, (ConfigError.base [msg, ""]).str = .ok msg) ∧
    (∀ msg hint, hint ≠ "" → (ConfigError.base [msg, hint]).str = .ok (msg ++ " (" ++ hint ++ ")")) ∧
    (∀ args, args.length ≠ 2 → (ConfigError.base args).str = .error .value) := by
  refine ⟨fun msg => ?_, fun msg hint h => ?_, fun args h => ?_⟩
  · simp [ConfigError.str, ConfigError.args]
  · simp only [ConfigError.str, ConfigError.args, if_pos h]
    simp [toString, String.append_assoc]
  · match args, h with
    | [], _ => rfl
    | [_], _ => rfl
    | [_, _], h => exact absurd rfl h
    | _ :: _ :: _ :: _, _ => rfl

example : (ConfigError.base ["failed", "try again"]).str = .ok "failed (try again)" := by decide

/-- C23 for the properties `msg` and `hint`: the message of every error of the library can be read, the
one of `SiteOccupiedError` names the atom and then the position; a displayed error is made of them. -/
theorem C23_message :
    (∀ atom pos, (ConfigError.siteOccupied atom pos).msg =
      .ok ("Can't add " ++ atom ++ " to lattice, position " ++ pos ++ " already occupied!")) ∧
    (∀ e : ConfigError, (∀ args, e ≠ .base args) → ∃ msg, e.msg = .ok msg ∧ msg ≠ "") ∧
    (∀ (e : ConfigError) (text : String), e.str = .ok text → ∃ msg hint, e.msg = .ok msg ∧
      e.hint = .ok hint ∧ (text = msg ∧ hint = "" ∨ text = msg ++ " (" ++ hint ++ ")")) := by
  have occ : ∀ atom pos, (ConfigError.siteOccupied atom pos).msg =
      .ok ("Can't add " ++ atom ++ " to lattice, position " ++ pos ++ " already occupied!") := by
    intro atom pos
    simp [ConfigError.msg, ConfigError.args, toString, String.append_assoc]
  refine ⟨occ, ?_, ?_⟩
  · intro e he
    cases e with
    | base args => exact absurd rfl (he args)
    | siteOccupied atom pos =>
      refine ⟨_, occ atom pos, fun h => ?_⟩
      have := congrArg String.length h
      simp [String.length_append] at this
    | noAtoms => exact ⟨_, rfl, by decide⟩
    | notAnalyzed => exact ⟨_, rfl, by decide⟩
    | noConnections => exact ⟨_, rfl, by decide⟩
    | notBuilt => exact ⟨_, rfl, by decide⟩
  · intro e text h
    unfold ConfigError.str at h
    split at h
    · rename_i msg hint hargs
      refine ⟨msg, hint, by simp [ConfigError.msg, hargs], by simp [ConfigError.hint, hargs], ?_⟩
      split_ifs at h with hh
      · right
        injection h with h
        rw [← h]
        simp [toString, String.append_assoc]
      · left
        injection h with h
        push Not at hh
        exact ⟨h.symm, hh⟩
    · cases h

example : ConfigError.notBuilt.msg = .ok "lattice has not been built" := rfl

/-- C23: `hint` raises `IndexError` for `SiteOccupiedError` and `NoAtomsError`, which pass no hint. -/
theorem C23_hint_fails (atom pos : String) :
    (ConfigError.siteOccupied atom pos).hint = .error .index ∧
      ConfigError.noAtoms.hint = .error .index := ⟨rfl, rfl⟩

/-- C23 fails for `SiteOccupiedError` and `NoAtomsError`: `str` raises `ValueError`. -/
theorem C23_error_str_fails (atom pos : String) :
    (ConfigError.siteOccupied atom pos).str = .error .value ∧
      ConfigError.noAtoms.str = .error .value := ⟨rfl, rfl⟩

end Lattpy
