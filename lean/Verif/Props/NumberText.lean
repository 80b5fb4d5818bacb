import Verif.Lemmas.TwiceRounded
import Verif.Spec.Binary32
import Verif.Props.JsonText

/-!
# C198: the numbers of a saved forest

Doubles and floats as they are in IEEE 754, with their texts, instead of the parameters of C99 and C197.
-/

set_option autoImplicit false

namespace Gbdt

/-! ## Specification -/

/-- The finite values of binary64. -/
def FiniteDouble (q : ℚ) : Prop := Binary 53 1074 q ∧ |q| < 2 ^ 1024

/-- The finite values of binary32. -/
def FiniteFloat (q : ℚ) : Prop := Binary 24 149 q ∧ |q| < 2 ^ 128

/-- A finite float that is zero or neither very small nor very large. -/
def UsualFloat (q : ℚ) : Prop := FiniteFloat q ∧ (q = 0 ∨ 10 ^ (-7 : ℤ) ≤ |q| ∧ |q| < 10 ^ (19 : ℤ))

/-! ## Texts of numbers -/

theorem readNumber_zero {n : ℕ} : readNumber (showNumber n 0) = some 0 := by
  unfold showNumber
  rw [if_pos rfl]
  decide +kernel

theorem round32_of {p : ℚ} {x : ℚ} (hr : roundRat 24 149 p = x) (h : |x| < 2 ^ 128) : F64.round32 (.num p) = .num x := by
  rw [← hr] at h ⊢
  exact round32_num (abs_lt.mp h).2 (abs_lt.mp h).1

/-- **C198 (doubles).** The text of a finite double is read as this double. -/
theorem C198_double {q : ℚ} (h : FiniteDouble q) : (readNumber (writeDouble q)).map F64.round = some (.num q) := by
  unfold writeDouble
  split
  · next hb => exact hb
  rcases eq_or_ne q 0 with rfl | h0
  · rw [readNumber_zero, Option.map_some, round_self h.1 h.2]
  obtain ⟨d, hd, herr⟩ := readNumber_show (n := 17) (by norm_num) q
  rw [hd, Option.map_some]
  have hpos : 0 < |q| := abs_pos.mpr h0
  have hr : roundRat 53 1074 d = q := by
    refine roundRat_close (by norm_num) h.1 ?_
    norm_num at herr ⊢
    linarith [abs_nonneg (d - q)]
  rw [round_small (by rw [hr]; exact h.2), hr]

/-- Nine digits are read as the float, directly or through a double. -/
theorem nine_digits {q : ℚ} (h : FiniteFloat q) :
    ∃ d, readNumber (showNumber 9 q) = some d ∧ F64.round32 (.num d) = .num q ∧ F64.round32 (F64.round d) = .num q := by
  have hself : roundRat 24 149 q = q := (roundRat_nearest (p := 24) (sub := 149) (by norm_num) q).1.self h.1
  have hbig : |q| < 2 ^ 1024 := lt_trans h.2 (pow_lt_pow_right₀ (by norm_num) (by norm_num))
  rcases eq_or_ne q 0 with rfl | h0
  · exact ⟨0, readNumber_zero, round32_of hself h.2, by rw [round_self h.1.asDouble hbig]; exact round32_of hself h.2⟩
  obtain ⟨d, hd, herr⟩ := readNumber_show (n := 9) (by norm_num) q
  have hpos : 0 < |q| := abs_pos.mpr h0
  refine ⟨d, hd, round32_of (roundRat_close (by norm_num) h.1 ?_) h.2, ?_⟩
  · norm_num at herr ⊢
    linarith [abs_nonneg (d - q)]
  · have hn := (roundRat_nearest (p := 53) (sub := 1074) (by norm_num) d).1.2 q h.1.asDouble
    set r := roundRat 53 1074 d with hr
    have h1 : |r - q| ≤ 2 * |d - q| := by
      calc |r - q| = |(r - d) + (d - q)| := by ring_nf
        _ ≤ |r - d| + |d - q| := abs_add_le _ _
        _ ≤ _ := by rw [abs_sub_comm r d]; linarith
    have hrq : |r| < 2 ^ 129 := by
      have h2 : |r| ≤ |r - q| + |q| := by
        calc |r| = |(r - q) + q| := by ring_nf
          _ ≤ _ := abs_add_le _ _
      have h3 : |r - q| ≤ |q| := by
        norm_num at herr
        linarith [abs_nonneg (d - q)]
      have h4 : |q| < 2 ^ 128 := h.2
      have h5 : (2 : ℚ) ^ 129 = 2 * 2 ^ 128 := by norm_num
      linarith
    have hround : F64.round d = .num r := by
      rw [hr]
      refine round_small (lt_trans ?_ (pow_lt_pow_right₀ (by norm_num) (by norm_num : 129 < 1024)))
      rw [← hr]
      exact hrq
    rw [hround]
    refine round32_of (roundRat_close (by norm_num) h.1 ?_) h.2
    norm_num at herr ⊢
    linarith [abs_nonneg (d - q)]

/-- **C198 (floats).** The text of a finite float with nine digits if six do not suffice is read as this float by `strtof`. -/
theorem C198_float {q : ℚ} (h : FiniteFloat q) : (readNumber (writeSingle 9 q)).map (fun x => F64.round32 (.num x)) = some (.num q) := by
  unfold writeSingle
  split
  · next hb => exact hb
  · obtain ⟨d, hd, h1, _⟩ := nine_digits h
    rw [hd, Option.map_some, h1]

theorem through_positive {q : ℚ} (h1 : 10 ^ (-7 : ℤ) ≤ q) (h2 : q < 10 ^ (19 : ℤ)) :
    ∃ r, F64.round (shownDigits 6 q) = .num r ∧ F64.round (-shownDigits 6 q) = .num (-r) ∧
      roundRat 24 149 r = roundRat 24 149 (shownDigits 6 q) := by
  have hq : 0 < q := lt_of_lt_of_le (tens _) h1
  have herr := (someDigits_spec (n := 6) (by norm_num) hq).2.2
  set d := shownDigits 6 q with hd
  have hdq : |d| ≤ 2 * q := by
    have h3 : |d| ≤ |d - q| + |q| := by
      calc |d| = |(d - q) + q| := by ring_nf
        _ ≤ _ := abs_add_le _ _
    rw [abs_of_pos hq] at h3
    norm_num at herr
    linarith [abs_nonneg (d - q)]
  have hn := roundRat_nearest (p := 53) (sub := 1074) (by norm_num) d
  have h0 := hn.1.2 0 ⟨0, 0, by norm_num, by norm_num, by norm_num⟩
  rw [sub_zero] at h0
  have hr : |roundRat 53 1074 d| < 2 ^ 1024 := by
    have h3 : |roundRat 53 1074 d| ≤ |d - roundRat 53 1074 d| + |d| := by
      calc |roundRat 53 1074 d| = |d - (d - roundRat 53 1074 d)| := by ring_nf
        _ ≤ |d| + |d - roundRat 53 1074 d| := abs_sub _ _
        _ = _ := add_comm _ _
    have h4 : 4 * q < 2 ^ 128 := by
      norm_num at h2 ⊢
      linarith
    have h5 : (2 : ℚ) ^ 128 ≤ 2 ^ 1024 := pow_le_pow_right₀ (by norm_num) (by norm_num)
    exact lt_of_le_of_lt (by linarith) (lt_of_lt_of_le h4 h5)
  refine ⟨roundRat 53 1074 d, round_small hr, ?_, twice_short h1 h2⟩
  rw [round_small (by rw [roundRat_minus, abs_neg]; exact hr), roundRat_minus]

theorem round32_same {p r x : ℚ} (h : roundRat 24 149 r = roundRat 24 149 p) (hp : F64.round32 (.num p) = .num x) : F64.round32 (.num r) = .num x := by
  simp only [F64.round32] at hp ⊢
  rw [h]
  exact hp

/-- **C198 (floats, as protobuf reads them).** Read as a double and then rounded to a float, the text is read as this float, if it is zero or between `1e-7` and
`1e19` in size. -/
theorem C198_float_through {q : ℚ} (h : UsualFloat q) :
    (readNumber (writeSingle 9 q)).map (fun x => F64.round32 (F64.round x)) = some (.num q) := by
  obtain ⟨hf, hu⟩ := h
  unfold writeSingle
  split
  swap
  · obtain ⟨d, hd, _, h2⟩ := nine_digits hf
    rw [hd, Option.map_some, h2]
  · next hb =>
    rcases eq_or_ne q 0 with rfl | h0
    · rw [readNumber_zero]
      decide +kernel
    obtain ⟨u1, u2⟩ := hu.resolve_left h0
    unfold showNumber at hb ⊢
    rw [if_neg h0] at hb ⊢
    by_cases hneg : q < 0
    · rw [if_pos hneg] at hb ⊢
      rw [abs_of_neg hneg] at u1 u2
      obtain ⟨r, _, h2, h3⟩ := through_positive u1 u2
      rw [readNumber, if_pos rfl, readUnsigned_digits (by norm_num) (by linarith), Option.map_some, Option.map_some] at hb ⊢
      simp only [Option.some.injEq] at hb ⊢
      rw [h2]
      refine round32_same ?_ hb
      rw [roundRat_minus, roundRat_minus, h3]
    · have hpos : 0 < q := lt_of_le_of_ne (not_lt.mp hneg) (Ne.symm h0)
      rw [if_neg hneg] at hb ⊢
      rw [abs_of_pos hpos] at u1 u2
      obtain ⟨r, h1, _, h3⟩ := through_positive u1 u2
      obtain ⟨⟨c, s, hc, hd⟩, _⟩ := showDigits_text 6 q
      have hread : readNumber (showDigits 6 q) = some (shownDigits 6 q) := by
        have := readUnsigned_digits (n := 6) (by norm_num) hpos
        rw [hc] at this ⊢
        rw [readNumber, if_neg (digit_notSign hd).1, this]
      rw [hread, Option.map_some] at hb ⊢
      simp only [Option.some.injEq] at hb ⊢
      rw [h1]
      exact round32_same h3 hb

/-- **C198 (eight digits).** With eight digits, as versions of protobuf write, different floats have the same text. -/
theorem C198_eight_digits : FiniteFloat (1000 + 1 / 2 ^ 14) ∧ FiniteFloat (1000 + 1 / 2 ^ 13) ∧
    writeSingle 8 (1000 + 1 / 2 ^ 14) = writeSingle 8 (1000 + 1 / 2 ^ 13) := by
  refine ⟨⟨⟨16384001, -14, by norm_num, by norm_num, by norm_num⟩, by norm_num⟩, ⟨⟨8192001, -13, by norm_num, by norm_num, by norm_num⟩, by norm_num⟩, ?_⟩
  decide +kernel

/-! ## Forests -/

/-- The text of a number. -/
abbrev NumTok := { t : Text // t ≠ [] ∧ ∀ c ∈ t, jsonNumChar c = true }

/-- A text as the text of a number. -/
def mkTok (t : Text) : NumTok := if h : t ≠ [] ∧ ∀ c ∈ t, jsonNumChar c = true then ⟨t, h⟩ else ⟨['0'], by decide⟩

/-- The text of a number in JSON. -/
def readTok (t : Text) : Option NumTok := if h : t ≠ [] ∧ ∀ c ∈ t, jsonNumChar c = true then some ⟨t, h⟩ else none

theorem tok_text : NumberText (Subtype.val : NumTok → Text) readTok where
  chars x := x.2.2
  nonempty x := x.2.1
  read x := by rw [readTok, dif_pos x.2]

/-- The values of binary64. -/
def Double := { x : F64 // ∀ q, x = .num q → FiniteDouble q }

/-- The values of binary32 that are not NaN, without very small and very large ones. -/
def UsualF32 := { x : F32 // ∀ q, x = F32.fin q → UsualFloat q }

instance : Zero Double := ⟨⟨.num 0, fun q h => by
  cases h
  exact ⟨⟨0, 0, by norm_num, by norm_num, by norm_num⟩, by norm_num⟩⟩⟩

/-- Reading the names of the values that are not finite (protobuf, called in `json_utils.cc:61-62`). -/
def readSpecial (s : String) : Option F64 :=
  if s = "NaN" then some .nan else if s = "Infinity" then some (.inf false) else if s = "-Infinity" then some (.inf true) else none

/-- The value in JSON of a double or float whose finite values have the text `write` (protobuf, called in `json_utils.cc:53-55`). -/
def realJson (write : ℚ → Text) : F64 → Json NumTok
  | .nan => .str "NaN"
  | .inf false => .str "Infinity"
  | .inf true => .str "-Infinity"
  | .num q => .num (mkTok (write q))

/-- Reading it (protobuf, called in `json_utils.cc:61-62`); `near` is the rounding. -/
def readRealJson (near : ℚ → F64) : Json NumTok → Option F64
  | .str s => readSpecial s
  | .num t => (readNumber t.1).map near
  | _ => none

open Classical in
/-- A double. -/
noncomputable def asDouble (x : F64) : Option Double := if h : ∀ q, x = .num q → FiniteDouble q then some ⟨x, h⟩ else none

open Classical in
/-- A float; very small and very large ones are left out. -/
noncomputable def asUsual : F64 → Option (Fl UsualF32)
  | x => match F32.ofDouble x with
    | .nan => some .nan
    | .num a => if h : ∀ q, a = F32.fin q → UsualFloat q then some (.num ⟨a, h⟩) else none

/-- A float as a double. -/
def floatValue : Fl UsualF32 → F64
  | .nan => .nan
  | .num a => F32.toDouble a.1

/-- protobuf's numbers in JSON (`json_utils.cc:48-67`): doubles with 15 or 17 digits, floats with 6 or 9, which are read as doubles first. -/
noncomputable def ieeeCodec : NumCodec Double UsualF32 NumTok where
  real x := realJson writeDouble x.1
  readReal j := (readRealJson F64.round j).bind asDouble
  single x := realJson (writeSingle 9) (floatValue x)
  readSingle j := (readRealJson (fun q => F64.round32 (F64.round q)) j).bind asUsual
  index i := .num (mkTok (Nat.toDigits 10 i))
  readIndex
    | .num t => readNatural t.1
    | _ => none

theorem numberChar_json {c : Char} (h : NumberChar c) : jsonNumChar c = true := by
  rcases h with h | rfl | rfl | rfl | rfl
  · simp [jsonNumChar, h]
  all_goals decide

theorem mkTok_val {t : Text} (h0 : t ≠ []) (h : ∀ c ∈ t, NumberChar c) : (mkTok t).1 = t := by
  rw [mkTok, dif_pos ⟨h0, fun c hc => numberChar_json (h c hc)⟩]

theorem writeDouble_text (q : ℚ) : writeDouble q ≠ [] ∧ ∀ c ∈ writeDouble q, NumberChar c := by
  unfold writeDouble
  split <;> exact showNumber_text _ q

theorem writeSingle_text (n : ℕ) (q : ℚ) : writeSingle n q ≠ [] ∧ ∀ c ∈ writeSingle n q, NumberChar c := by
  unfold writeSingle
  split <;> exact showNumber_text _ q

theorem realJson_plain (write : ℚ → Text) (x : F64) : (∃ n, realJson write x = .num n) ∨ ∃ s, realJson write x = .str s := by
  rcases x with _ | b | q
  · exact Or.inr ⟨_, rfl⟩
  · cases b <;> exact Or.inr ⟨_, rfl⟩
  · exact Or.inl ⟨_, rfl⟩

theorem readRealJson_write {write : ℚ → Text} {near : ℚ → F64} (hw : ∀ q, write q ≠ [] ∧ ∀ c ∈ write q, NumberChar c) {x : F64}
    (h : ∀ q, x = .num q → (readNumber (write q)).map near = some (.num q)) : readRealJson near (realJson write x) = some x := by
  rcases x with _ | b | q
  · rfl
  · cases b <;> rfl
  · simp only [realJson, readRealJson]
    rw [mkTok_val (hw q).1 (hw q).2]
    exact h q rfl

theorem ofDouble_toDouble (a : F32) : F32.ofDouble (F32.toDouble a) = .num a := by
  rcases a with _ | _ | q <;> rfl

theorem ieeeCodec_exact : ieeeCodec.Exact where
  real x := by
    show (readRealJson F64.round (realJson writeDouble x.1)).bind asDouble = some x
    rw [readRealJson_write writeDouble_text (fun q hq => C198_double (x.2 q hq)), Option.bind_some, asDouble, dif_pos x.2]
    rfl
  single x := by
    show (readRealJson (fun q => F64.round32 (F64.round q)) (realJson (writeSingle 9) (floatValue x))).bind asUsual = some x
    rw [readRealJson_write (writeSingle_text 9), Option.bind_some]
    · rcases x with _ | a
      · rfl
      · simp only [floatValue, asUsual, ofDouble_toDouble]
        rw [dif_pos a.2]
        rfl
    · intro q hq
      rcases x with _ | a
      · cases hq
      · refine C198_float_through (a.2 q ?_)
        have := congrArg F32.ofDouble hq
        rw [floatValue, ofDouble_toDouble] at this
        exact Fl.num.inj this
  index i := by
    show readNatural (mkTok (Nat.toDigits 10 i)).1 = some i
    rw [mkTok_val Nat.toDigits_ne_nil (fun c hc => Or.inl (toDigits_digits i c hc)), readNatural,
      if_pos ⟨Nat.toDigits_ne_nil, List.all_eq_true.mpr (toDigits_digits i)⟩, decimal_toDigits]
  realPlain x := realJson_plain _ _
  singlePlain x := realJson_plain _ _

/-- **C198.** The text that is written for a forest with doubles and floats is read as exactly this forest: no digit of a score, a gain or a threshold is lost. -/
theorem C198_forest (hidden : Char → Bool) (zero : UsualF32) {f : ForestMsg Double UsualF32} (hset : ∀ t ∈ f.trees, t ≠ .absent)
    (hdepth : ∀ t ∈ f.trees, treeNesting t ≤ 64) :
    ∃ j, forestToJson ieeeCodec 64 f = .ok j ∧
      (readJson readTok (j.text hidden Subtype.val)).map (forestFromJson ieeeCodec zero 100) = some (.ok f) := by
  obtain ⟨j, hj⟩ := (C99_saving ieeeCodec 64 f).mpr hdepth
  refine ⟨j, hj, ?_⟩
  rw [C197_text tok_text j, Option.map_some, C99_roundtrip ieeeCodec_exact zero f hset (fun t ht => le_trans (hdepth t ht) (by norm_num)) hj]

/-! ## Examples -/

theorem third_double : FiniteDouble (6004799503160661 / 2 ^ 54) := ⟨⟨6004799503160661, -54, by norm_num, by norm_num, by norm_num⟩, by
  rw [abs_of_pos (by norm_num)]
  exact lt_of_lt_of_le (by norm_num : (6004799503160661 / 2 ^ 54 : ℚ) < 1) (one_le_pow₀ (by norm_num))⟩

theorem tenth_float : UsualFloat (13421773 / 2 ^ 27) :=
  ⟨⟨⟨13421773, -27, by norm_num, by norm_num, by norm_num⟩, by rw [abs_of_pos (by norm_num)]; norm_num⟩, Or.inr (by rw [abs_of_pos (by norm_num)]; norm_num)⟩

/-- A third needs 17 digits, a tenth as a float is `0.1`, another float needs nine digits. -/
example : writeDouble (6004799503160661 / 2 ^ 54) = "0.33333333333333331".toList ∧ writeSingle 9 (13421773 / 2 ^ 27) = "0.1".toList ∧
    writeSingle 9 (-1000 - 1 / 2 ^ 14) = "-1000.00006".toList ∧ writeDouble (2 ^ 70) = "1.1805916207174113e+21".toList ∧
    writeDouble 0 = "0".toList := by decide +kernel

/-- A tree with a split at a tenth and the score of a third. -/
def ieeeForest : ForestMsg Double UsualF32 :=
  ⟨[.node ⟨.num (6004799503160661 / 2 ^ 54), fun q h => by cases h; exact third_double⟩
    (some { feature := "x", floatSplit := some ⟨.num ⟨F32.fin (13421773 / 2 ^ 27), fun q h => by rw [← F32.fin_inj h]; exact tenth_float⟩, false⟩,
            gain := ⟨.inf false, fun q h => by cases h⟩ })
    (.node 0 none .absent .absent) (.node ⟨.nan, fun q h => by cases h⟩ none .absent .absent)], "é"⟩

example : ∃ j, forestToJson ieeeCodec 64 ieeeForest = .ok j ∧
    (readJson readTok (j.text (fun _ => false) Subtype.val)).map (forestFromJson ieeeCodec ⟨F32.fin (13421773 / 2 ^ 27), fun q h => by
      rw [← F32.fin_inj h]; exact tenth_float⟩ 100) = some (.ok ieeeForest) :=
  C198_forest _ _ (by simp [ieeeForest]) (by simp [ieeeForest, treeNesting, splitNesting])

end Gbdt
