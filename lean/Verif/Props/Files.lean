import Verif.Model.Files
import Mathlib.Data.Nat.Digits.Lemmas
import Mathlib.Data.List.TakeWhile
import Mathlib.Tactic.IntervalCases
import Mathlib.Tactic.Linarith
import Mathlib.Tactic.NormNum
import Mathlib.Tactic.Ring

/-! Properties C03 and C04: interval file names and lookup of saved intervals. -/

namespace Verif.Files

/-! ### Helper lemmas: decimal digits -/

/-- Value of a digit string. -/
def val (s : List Char) : ℕ := s.foldl (fun acc c => acc * 10 + digitVal c) 0

theorem digitVal_digitChar {d : ℕ} (h : d < 10) : digitVal (digitChar d) = d := by
  interval_cases d <;> rfl

theorem isDigit_digitChar {d : ℕ} (h : d < 10) : isDigit (digitChar d) = true := by
  interval_cases d <;> rfl

theorem foldl_val (s : List Char) (a : ℕ) :
    s.foldl (fun acc c => acc * 10 + digitVal c) a = a * 10 ^ s.length + val s := by
  induction s generalizing a with
  | nil => simp [val]
  | cons c s ih =>
    simp only [List.foldl_cons, val, List.length_cons]
    rw [ih, ih (0 * 10 + digitVal c)]
    ring

theorem val_cons (c : Char) (s : List Char) :
    val (c :: s) = digitVal c * 10 ^ s.length + val s := by
  simp only [val, List.foldl_cons]
  rw [foldl_val]; simp [val]

theorem val_append (s t : List Char) : val (s ++ t) = val s * 10 ^ t.length + val t := by
  simp only [val, List.foldl_append]
  rw [foldl_val]; simp [val]

theorem val_zeros (n : ℕ) : val (List.replicate n '0') = 0 := by
  induction n with
  | zero => rfl
  | succ n ih => rw [List.replicate_succ, val_cons, ih]; simp [digitVal]

theorem val_digits (L : List ℕ) (h : ∀ d ∈ L, d < 10) :
    val (L.reverse.map digitChar) = Nat.ofDigits 10 L := by
  induction L with
  | nil => rfl
  | cons d L ih =>
    rw [List.reverse_cons, List.map_append, val_append, ih (fun x hx => h x (by simp [hx]))]
    simp only [List.map_cons, List.map_nil, Nat.ofDigits_cons, val_cons,
      digitVal_digitChar (h d (by simp))]
    simp [val]; ring

theorem val_dec (n : ℕ) : val (dec n) = n := by
  unfold dec
  split_ifs with h
  · subst h; rfl
  · rw [val_digits _ (fun d hd => Nat.digits_lt_base (by norm_num) hd), Nat.ofDigits_digits]

theorem isDigit_dec (n : ℕ) : ∀ c ∈ dec n, isDigit c = true := by
  unfold dec
  split_ifs with h
  · simp [isDigit]
  · intro c hc
    simp only [List.mem_map, List.mem_reverse] at hc
    obtain ⟨d, hd, rfl⟩ := hc
    exact isDigit_digitChar (Nat.digits_lt_base (by norm_num) hd)

theorem dec_ne_nil (n : ℕ) : dec n ≠ [] := by
  unfold dec
  split_ifs with h
  · simp
  · simp [Nat.digits_eq_nil_iff_eq_zero, h]

theorem isDigit_pad6 (n : ℕ) : ∀ c ∈ pad6 n, isDigit c = true := by
  intro c hc
  unfold pad6 at hc
  rcases List.mem_append.1 hc with h | h
  · rw [(List.mem_replicate.1 h).2]; rfl
  · exact isDigit_dec n c h

theorem val_pad6 (n : ℕ) : val (pad6 n) = n := by
  unfold pad6
  rw [val_append, val_zeros, val_dec]; simp

theorem pad6_ne_nil (n : ℕ) : pad6 n ≠ [] := by
  unfold pad6
  intro h
  exact dec_ne_nil n (List.append_eq_nil_iff.1 h).2

theorem pyInt_pad6 (n : ℕ) : pyInt (pad6 n) = some n := by
  unfold pyInt
  rw [if_pos ⟨pad6_ne_nil n, List.all_eq_true.2 (isDigit_pad6 n)⟩]
  exact congrArg some (val_pad6 n)

/-- Below one million exactly six digits are written. -/
theorem length_pad6 {n : ℕ} (h : n < 1000000) : (pad6 n).length = 6 := by
  have hd : (dec n).length ≤ 6 := by
    unfold dec
    split_ifs with h0
    · simp
    · rw [List.length_map, List.length_reverse]
      have := (Nat.digits_length_le_iff (b := 10) (k := 6) (by norm_num) n).2 (by simpa using h)
      exact this
  unfold pad6
  rw [List.length_append, List.length_replicate]
  omega

/-! ### Helper lemmas: splitting -/

theorem splitGo_skip (sep s t acc : List Char) :
    splitGo sep (s ++ t) acc s.length = splitGo sep t acc 0 := by
  induction s with
  | nil => rfl
  | cons c s ih => simpa [splitGo] using ih

theorem splitGo_match (sep t acc : List Char) (h : sep ≠ []) :
    splitGo sep (sep ++ t) acc 0 = acc.reverse :: splitGo sep t [] 0 := by
  match sep, h with
  | c :: s, _ =>
    have hp : List.isPrefixOf (c :: s) (c :: (s ++ t)) = true := by
      rw [List.isPrefixOf_iff_prefix]; exact ⟨t, rfl⟩
    simp only [List.cons_append, splitGo, hp, if_true, List.length_cons, Nat.add_sub_cancel]
    rw [splitGo_skip]

/-- `sep` does not start at any position inside `a`, when `a` is followed by `b`. -/
def NoMatchIn (sep a b : List Char) : Prop :=
  ∀ i < a.length, ¬ sep <+: (a ++ b).drop i

theorem splitGo_nomatch (sep a b acc : List Char) (h : NoMatchIn sep a b) :
    splitGo sep (a ++ b) acc 0 = splitGo sep b (a.reverse ++ acc) 0 := by
  induction a generalizing acc with
  | nil => rfl
  | cons c a ih =>
    have h0 : ¬ List.isPrefixOf sep (c :: (a ++ b)) = true := by
      rw [List.isPrefixOf_iff_prefix]
      simpa using h 0 (by simp)
    have h1 : NoMatchIn sep a b := fun i hi => by
      simpa using h (i + 1) (by simpa using hi)
    simp only [List.cons_append, splitGo, h0]
    rw [if_neg (by simp), ih _ h1]
    simp

theorem splitGo_end (sep a acc : List Char) (h : NoMatchIn sep a []) :
    splitGo sep a acc 0 = [acc.reverse ++ a] := by
  have := splitGo_nomatch sep a [] acc h
  rw [List.append_nil] at this
  rw [this]; simp [splitGo]

theorem noMatch_of_char {sep s : List Char} (h : ∃ c ∈ sep, c ∉ s) : NoMatchIn sep s [] := by
  obtain ⟨c, hc, hn⟩ := h
  intro i _ hp
  rw [List.append_nil] at hp
  exact hn (List.mem_of_mem_drop (hp.subset hc))

theorem noMatch_first {c : Char} {sep a b : List Char} (h : c ∉ a) :
    NoMatchIn (c :: sep) a b := by
  intro i hi hp
  rw [List.drop_append_of_le_length hi.le, List.drop_eq_getElem_cons hi, List.cons_append,
    List.cons_prefix_cons] at hp
  exact h (hp.1 ▸ List.getElem_mem hi)

theorem noMatch_extend {sep a b : List Char} (h : NoMatchIn sep a sep) :
    NoMatchIn sep a (sep ++ b) := by
  intro i hi hp
  apply h i hi
  have hl : ((a ++ sep).drop i).length ≥ sep.length := by simp; omega
  rw [← List.append_assoc, List.drop_append_of_le_length (by simp; omega)] at hp
  exact List.prefix_of_prefix_length_le hp (List.prefix_append _ _) hl

/-! ### Specification of admissible naming schemes -/

/-- The naming schemes for which names can be parsed back: the prefix has a character that
occurs neither in the extension nor among digits and dot, and the text before the prefix does
not contain an accidental earlier match.  All schemes used in the code base satisfy it (see the
examples below). -/
structure GoodScheme (pre pfx ext : List Char) : Prop where
  distinct : ∃ c ∈ pfx, isDigit c = false ∧ c ≠ '.' ∧ c ∉ ext
  first : NoMatchIn pfx pre pfx

theorem parse_filename {pre pfx ext : List Char} (g : GoodScheme pre pfx ext) (k : ℕ) :
    parseMany pfx ext (outputFilename pre pfx ext k) = some k := by
  obtain ⟨c, hc, hd, hdot, hext⟩ := g.distinct
  have hne : pfx ≠ [] := List.ne_nil_of_mem hc
  have hrest : NoMatchIn pfx (pad6 k ++ '.' :: ext) [] := by
    apply noMatch_of_char
    refine ⟨c, hc, ?_⟩
    simp only [List.mem_append, List.mem_cons, not_or]
    refine ⟨fun hm => ?_, hdot, hext⟩
    rw [isDigit_pad6 k c hm] at hd; exact Bool.noConfusion hd
  have hdotp : '.' ∉ pad6 k := fun hm => by
    have := isDigit_pad6 k '.' hm
    exact absurd this (by decide)
  have h1 : pySplit pfx (outputFilename pre pfx ext k) = [pre, pad6 k ++ '.' :: ext] := by
    unfold pySplit outputFilename
    rw [show pre ++ pfx ++ pad6 k ++ '.' :: ext = pre ++ (pfx ++ (pad6 k ++ '.' :: ext)) by simp,
      splitGo_nomatch _ _ _ _ (noMatch_extend g.first), splitGo_match _ _ _ hne,
      splitGo_end _ _ _ hrest]
    simp
  unfold parseMany
  rw [h1]
  have h2 : firstPiece (pySplit ('.' :: ext) (pad6 k ++ '.' :: ext)) = pad6 k := by
    unfold pySplit
    rw [splitGo_nomatch _ _ _ _ (noMatch_first hdotp)]
    have := splitGo_match ('.' :: ext) [] ((pad6 k).reverse ++ []) (by simp)
    rw [List.append_nil] at this
    rw [this]; simp [firstPiece]
  simp only [lastPiece, List.getLastD_cons, List.getLastD_nil]
  rw [h2, pyInt_pad6]

/-! ### C03 -/

/-- Different intervals never share a file name, whatever the prefix and extension. -/
theorem C03_filename_injective (pre pfx ext : List Char) (j k : ℕ)
    (h : outputFilename pre pfx ext j = outputFilename pre pfx ext k) : j = k := by
  unfold outputFilename at h
  have h1 : pad6 j = pad6 k :=
    List.append_cancel_left (List.append_cancel_right h)
  rw [← val_pad6 j, h1, val_pad6]

/-- The interval number read from a file name is the one used to write it. -/
theorem C03_parse_roundtrip (pre pfx ext : List Char) (g : GoodScheme pre pfx ext) (k : ℕ) :
    parseMany pfx ext (outputFilename pre pfx ext k) = some k := parse_filename g k

theorem lastRun_filename {pre pfx ext : List Char} (hext : ∀ c ∈ ext, isDigit c = false)
    (hlast : ∀ c, (pre ++ pfx).getLast? = some c → isDigit c = false) (k : ℕ) :
    lastRun (outputFilename pre pfx ext k) = pad6 k := by
  unfold lastRun outputFilename
  have hdrop : ((pre ++ pfx ++ pad6 k ++ '.' :: ext).reverse.dropWhile (fun c => !isDigit c))
      = (pad6 k).reverse ++ (pre ++ pfx).reverse := by
    rw [List.reverse_append, List.reverse_append]
    rw [List.dropWhile_append_of_pos]
    · rw [List.dropWhile_eq_self_iff.2]
      intro hl
      have hne : (pad6 k).reverse ≠ [] := by simpa using pad6_ne_nil k
      have : ((pad6 k).reverse ++ (pre ++ pfx).reverse)[0] = (pad6 k).reverse[0]'(by
          exact List.length_pos_of_ne_nil hne) := by
        rw [List.getElem_append_left]
      rw [this]
      simp [isDigit_pad6 k _ (List.getElem_mem _)]
    · intro c hc
      simp only [List.mem_reverse, List.mem_cons] at hc
      rcases hc with rfl | hc
      · rfl
      · simp [hext c hc]
  rw [hdrop]
  rw [List.takeWhile_append_of_pos]
  · have : List.takeWhile isDigit (pre ++ pfx).reverse = [] := by
      cases hr : (pre ++ pfx).reverse with
      | nil => rfl
      | cons c t =>
        have : (pre ++ pfx).getLast? = some c := by
          rw [List.getLast?_eq_head?_reverse, hr]; rfl
        simp [hlast c this]
    rw [this]; simp
  · intro c hc
    exact isDigit_pad6 k c (List.mem_reverse.1 hc)

/-- Listing a directory that holds the files of the intervals `ks`, found by the directory scan
in any order, gives exactly these intervals in increasing order. -/
theorem C03_listing (pre pfx ext : List Char) (g : GoodScheme pre pfx ext)
    (hext : ∀ c ∈ ext, isDigit c = false)
    (hlast : ∀ c, (pre ++ pfx).getLast? = some c → isDigit c = false)
    (ks : List ℕ) (hks : ks ≠ []) (names : List (List Char))
    (hn : names.Perm (ks.map (outputFilename pre pfx ext))) :
    ∃ l, savedIntervals pfx ext names = some (some l) ∧ l.Perm ks ∧ l.Pairwise (· ≤ ·) := by
  match names, hn with
  | [], hn =>
    have := hn.length_eq
    simp at this
    exact absurd (List.length_eq_zero_iff.1 this.symm) hks
  | [n], hn =>
    have hl := hn.length_eq
    simp only [List.length_cons, List.length_nil, List.length_map] at hl
    obtain ⟨k, rfl⟩ := List.length_eq_one_iff.1 hl.symm
    have : n = outputFilename pre pfx ext k := by
      simpa using hn
    subst this
    refine ⟨[k], ?_, List.Perm.refl _, by simp⟩
    simp only [savedIntervals, lastRun_filename hext hlast k, pad6_ne_nil, if_false, pyInt_pad6,
      Option.map_some]
  | n :: m :: ns, hn =>
    simp only [savedIntervals]
    obtain ⟨ks', hperm, hmap⟩ : ∃ ks' : List ℕ, ks'.Perm ks ∧
        n :: m :: ns = ks'.map (outputFilename pre pfx ext) := by
      have hinj : Function.Injective (outputFilename pre pfx ext) := fun a b h =>
        C03_filename_injective _ _ _ _ _ h
      have hall : ∀ x ∈ n :: m :: ns, ∃ k, outputFilename pre pfx ext k = x := by
        intro x hx
        have := hn.subset hx
        obtain ⟨k, _, rfl⟩ := List.mem_map.1 this
        exact ⟨k, rfl⟩
      obtain ⟨ks', hks'⟩ : ∃ ks' : List ℕ, ks'.map (outputFilename pre pfx ext) = n :: m :: ns := by
        generalize n :: m :: ns = l at hall
        induction l with
        | nil => exact ⟨[], rfl⟩
        | cons a l ih =>
          obtain ⟨t, ht⟩ := ih (fun x hx => hall x (by simp [hx]))
          obtain ⟨k, hk⟩ := hall a (by simp)
          exact ⟨k :: t, by simp [hk, ht]⟩
      refine ⟨ks', ?_, hks'.symm⟩
      rw [← hks'] at hn
      exact (List.map_perm_map_iff hinj).1 hn
    rw [hmap]
    have hm : (ks'.map (outputFilename pre pfx ext)).mapM (parseMany pfx ext) = some ks' := by
      clear hmap hperm
      induction ks' with
      | nil => rfl
      | cons k t ih => simp [parse_filename g, ih]
    rw [hm]
    refine ⟨ks'.insertionSort (· ≤ ·), rfl, (List.perm_insertionSort _ _).trans hperm, ?_⟩
    exact List.pairwise_insertionSort _ _

/-- The observed crater files of intervals 7 and 12, found in the wrong order. -/
example : savedIntervals "craters".toList "nc".toList
    ["observed_craters000012.nc".toList, "observed_craters000007.nc".toList] = some (some [7, 12]) := by
  decide +kernel

example : ["observed_craters000012.nc".toList, "observed_craters000007.nc".toList].Perm
    ([7, 12].map (outputFilename "observed_".toList "craters".toList "nc".toList)) := by
  decide +kernel

/-! ### C04 -/

theorem val_lt_pow (s : List Char) (h : ∀ c ∈ s, isDigit c = true) : val s < 10 ^ s.length := by
  induction s with
  | nil => simp [val]
  | cons c s ih =>
    rw [val_cons, List.length_cons, pow_succ]
    have h1 := ih (fun x hx => h x (by simp [hx]))
    have h2 : digitVal c ≤ 9 := by
      have := h c (by simp)
      simp only [isDigit, Bool.and_eq_true, decide_eq_true_eq] at this
      unfold digitVal; omega
    nlinarith [Nat.mul_le_mul_right (10 ^ s.length) h2]

theorem lex_of_val (s t : List Char) (hs : ∀ c ∈ s, isDigit c = true)
    (ht : ∀ c ∈ t, isDigit c = true) (hl : s.length = t.length) (hv : val s < val t)
    (x y : List Char) : s ++ x < t ++ y := by
  induction s generalizing t with
  | nil =>
    have : t = [] := List.length_eq_zero_iff.1 hl.symm
    subst this; simp at hv
  | cons c s ih =>
    match t, ht, hl, hv with
    | d :: t, ht, hl, hv =>
      simp only [List.length_cons, Nat.add_right_cancel_iff] at hl
      rw [val_cons, val_cons, hl] at hv
      have hs' := fun x hx => hs x (List.mem_cons_of_mem _ hx)
      have ht' := fun x hx => ht x (List.mem_cons_of_mem _ hx)
      have b1 := val_lt_pow s hs'
      have b2 := val_lt_pow t ht'
      rw [hl] at b1
      have hc := hs c (by simp)
      have hd := ht d (by simp)
      simp only [isDigit, Bool.and_eq_true, decide_eq_true_eq] at hc hd
      rcases lt_trichotomy c.toNat d.toNat with h | h | h
      · have hcd : c < d := by
          rw [Char.lt_def, UInt32.lt_iff_toNat_lt]; exact h
        exact List.Lex.rel hcd
      · have : c = d := by
          apply Char.ext
          apply UInt32.toNat_inj.1; exact h
        subst this
        have hv' : val s < val t := by omega
        exact List.Lex.cons (ih t hs' ht' hl hv')
      · exfalso
        have : digitVal d + 1 ≤ digitVal c := by unfold digitVal; omega
        have := Nat.mul_le_mul_right (10 ^ t.length) this
        nlinarith

/-- Below one million, text order of file names is numeric order of intervals. -/
theorem filename_lt {pre pfx ext : List Char} {j k : ℕ} (hj : j < 1000000) (hk : k < 1000000)
    (h : j < k) : outputFilename pre pfx ext j < outputFilename pre pfx ext k := by
  have hp := lex_of_val (pad6 j) (pad6 k) (isDigit_pad6 j) (isDigit_pad6 k)
    (by rw [length_pad6 hj, length_pad6 hk]) (by rwa [val_pad6, val_pad6])
    ('.' :: ext) ('.' :: ext)
  unfold outputFilename
  rw [List.append_assoc (pre ++ pfx), List.append_assoc (pre ++ pfx)]
  generalize pre ++ pfx = q
  induction q with
  | nil => exact hp
  | cons c q ih => exact List.Lex.cons ih

theorem sorted_names {pre pfx ext : List Char} (ks : List ℕ) (hb : ∀ k ∈ ks, k < 1000000)
    (hs : ks.Pairwise (· ≤ ·)) (names : List (List Char))
    (hn : names.Perm (ks.map (outputFilename pre pfx ext))) :
    names.insertionSort (· ≤ ·) = ks.map (outputFilename pre pfx ext) := by
  apply List.Perm.eq_of_pairwise' (r := (· ≤ ·))
  · exact List.pairwise_insertionSort _ _
  · rw [List.pairwise_map]
    refine hs.imp_of_mem ?_
    intro a b ha hb' hab
    rcases Nat.lt_or_eq_of_le hab with h | h
    · exact (filename_lt (hb a ha) (hb b hb') h).le
    · rw [h]
  · exact (List.perm_insertionSort _ _).trans hn

/-- With all saved intervals below one million, asking for a saved interval opens the file
written for it, in whatever order the directory scan returned the files.
Missing from the full statement: intervals from one million on, see `C04_read_fails`. -/
theorem C04_read_partial (pre pfx ext : List Char) (g : GoodScheme pre pfx ext)
    (hext : ∀ c ∈ ext, isDigit c = false)
    (hlast : ∀ c, (pre ++ pfx).getLast? = some c → isDigit c = false)
    (ks : List ℕ) (hb : ∀ k ∈ ks, k < 1000000) (names : List (List Char))
    (hn : names.Perm (ks.map (outputFilename pre pfx ext))) (k : ℕ) (hk : k ∈ ks) :
    readSaved pfx ext names (some (k : ℤ)) = .file (outputFilename pre pfx ext k) := by
  obtain ⟨l, hl, hp, hs⟩ := C03_listing pre pfx ext g hext hlast ks (List.ne_nil_of_mem hk)
    names hn
  have hkl : k ∈ l := hp.mem_iff.2 hk
  have hf := sorted_names (pre := pre) (pfx := pfx) (ext := ext) l
    (fun x hx => hb x (hp.mem_iff.1 hx)) hs names (hn.trans ((hp.map _).symm))
  have hlne : l ≠ [] := List.ne_nil_of_mem hkl
  have hnn : ¬ ((k : ℤ) < 0) := by omega
  have hidx : l.idxOf k < l.length := List.idxOf_lt_length_of_mem hkl
  simp only [readSaved, hl, hf, hlne, hnn, if_false, Int.toNat_natCast, hkl, if_true]
  rw [List.getElem?_map, List.getElem?_eq_getElem hidx]
  simp [List.getElem_idxOf]

/-- Negative requests count from the last saved interval. -/
theorem C04_negative_partial (pre pfx ext : List Char) (g : GoodScheme pre pfx ext)
    (hext : ∀ c ∈ ext, isDigit c = false)
    (hlast : ∀ c, (pre ++ pfx).getLast? = some c → isDigit c = false)
    (ks : List ℕ) (hb : ∀ k ∈ ks, k < 1000000) (hs : ks.Pairwise (· ≤ ·))
    (names : List (List Char)) (hn : names.Perm (ks.map (outputFilename pre pfx ext)))
    (j : ℕ) (h0 : 0 < j) (hj : j ≤ ks.length) :
    readSaved pfx ext names (some (-(j : ℤ)))
      = .file (outputFilename pre pfx ext (ks[ks.length - j]'(by omega))) := by
  have hne : ks ≠ [] := by intro h; subst h; simp at hj; omega
  obtain ⟨l, hl, hp, hs'⟩ := C03_listing pre pfx ext g hext hlast ks hne names hn
  have hlk : l = ks := List.Perm.eq_of_pairwise' (r := (· ≤ ·)) hs' hs hp
  subst hlk
  have hf := sorted_names (pre := pre) (pfx := pfx) (ext := ext) l hb hs names hn
  have hneg : (-(j : ℤ)) < 0 := by omega
  simp only [readSaved, hl, hf, hne, hneg, if_false, if_true]
  unfold pyIndex
  rw [if_neg (by omega), if_pos (by rw [List.length_map]; omega)]
  have : ((l.map (outputFilename pre pfx ext)).length + -(j : ℤ)).toNat = l.length - j := by
    rw [List.length_map]; omega
  rw [this, List.getElem?_map, List.getElem?_eq_getElem (by omega)]
  simp

/-- An interval that was not saved gives an empty data set, not another interval's data. -/
theorem C04_absent (pre pfx ext : List Char) (g : GoodScheme pre pfx ext)
    (hext : ∀ c ∈ ext, isDigit c = false)
    (hlast : ∀ c, (pre ++ pfx).getLast? = some c → isDigit c = false)
    (ks : List ℕ) (hne : ks ≠ []) (names : List (List Char))
    (hn : names.Perm (ks.map (outputFilename pre pfx ext))) (k : ℕ) (hk : k ∉ ks) :
    readSaved pfx ext names (some (k : ℤ)) = .empty := by
  obtain ⟨l, hl, hp, _⟩ := C03_listing pre pfx ext g hext hlast ks hne names hn
  have hkl : k ∉ l := fun h => hk (hp.mem_iff.1 h)
  have hlne : l ≠ [] := by
    rintro rfl; exact hne (List.Perm.eq_nil (hp.symm))
  have hnn : ¬ ((k : ℤ) < 0) := by omega
  simp [readSaved, hl, hlne, hkl]

/-- A file without an interval number in its name, such as the grid file, is read for every interval. -/
theorem C04_fixed_file (pfx ext name : List Char) (h : ∀ c ∈ name, isDigit c = false) (i : Option ℤ) :
    readSaved pfx ext [name] i = .all := by
  have hr : lastRun name = [] := by
    unfold lastRun
    have : name.reverse.dropWhile (fun c => !isDigit c) = [] := by
      rw [List.dropWhile_eq_nil_iff]
      intro c hc
      simp [h c (List.mem_reverse.mp hc)]
    rw [this]
    rfl
  have hs : savedIntervals pfx ext [name] = some (some []) := by
    simp [savedIntervals, hr]
  unfold readSaved
  rw [hs]
  cases i <;> simp

example : readSaved "surface".toList "nc".toList ["grid.nc".toList] (some 3) = .all :=
  C04_fixed_file _ _ _ (by decide) _

/-- From one million on, text order and numeric order differ: with intervals 999999 and 1000000
on disk, asking for 999999 opens the file of 1000000. -/
theorem C04_read_fails :
    ∃ (pre pfx ext : List Char) (ks : List ℕ) (names : List (List Char)) (k : ℕ),
      GoodScheme pre pfx ext ∧ names = ks.map (outputFilename pre pfx ext) ∧ k ∈ ks ∧
      ∃ k', k' ≠ k ∧ readSaved pfx ext names (some (k : ℤ))
        = .file (outputFilename pre pfx ext k') := by
  refine ⟨[], "surface".toList, "nc".toList, [999999, 1000000], _, 999999, ⟨⟨'s', by decide⟩, ?_⟩,
    rfl, by simp, 1000000, by simp, by decide +kernel⟩
  intro i hi; simp at hi

-- the schemes used in the code satisfy the hypotheses
example : GoodScheme [] "surface".toList "nc".toList :=
  ⟨⟨'s', by decide⟩, fun i hi => by simp at hi⟩
example : GoodScheme "observed_".toList "craters".toList "nc".toList := by
  refine ⟨⟨'t', by decide⟩, ?_⟩
  have : ∀ i < 9, ¬ "craters".toList <+: ("observed_".toList ++ "craters".toList).drop i := by
    decide
  exact this
example : GoodScheme "emplaced_".toList "craters".toList "nc".toList := by
  refine ⟨⟨'t', by decide⟩, ?_⟩
  have : ∀ i < 9, ¬ "craters".toList <+: ("emplaced_".toList ++ "craters".toList).drop i := by
    decide
  exact this
example : (∀ c ∈ "nc".toList, isDigit c = false) ∧
    ∀ c, ("observed_".toList ++ "craters".toList).getLast? = some c → isDigit c = false := by
  decide

/-- A single file whose prefix ends in a digit is misread: the digits of the prefix run into the
interval number. -/
theorem C03_single_file_digit_prefix_fails :
    savedIntervals "run1".toList "nc".toList [outputFilename [] "run1".toList "nc".toList 3]
      = some (some [1000003]) := by decide +kernel

end Verif.Files
