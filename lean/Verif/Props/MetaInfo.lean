import Verif.Model.MetaInfo
import Mathlib.Data.List.Forall2
import Mathlib.Data.List.Basic
import Mathlib.Logic.Function.Basic

/-!
# C193: the meta info of a model
-/

set_option autoImplicit false

namespace Gbdt

/-! ## Reading an escaped string back -/

/-- Reads one character of an escaped string in which quotation marks have become apostrophes. -/
def readEscaped : Text → Option (Char × Text)
  | [] => none
  | '\\' :: a :: r =>
    if a = 'n' then some ('\n', r)
    else if a = 'r' then some ('\r', r)
    else if a = 't' then some ('\t', r)
    else if a = '\'' then some ('\'', r)
    else if a = '\\' then some ('\\', r)
    else match r with
      | b :: c :: r => some (Char.ofNat ((a.toNat - 48) * 64 + (b.toNat - 48) * 8 + (c.toNat - 48)), r)
      | _ => none
  | c :: r => if c = '\'' then none else some (c, r)

theorem octalDigit_facts : ∀ d < 8, (octalDigit d).toNat = 48 + d ∧ octalDigit d ≠ 'n' ∧ octalDigit d ≠ 'r' ∧ octalDigit d ≠ 't' ∧
    octalDigit d ≠ '\'' ∧ octalDigit d ≠ '\\' ∧ octalDigit d ≠ '"' ∧ octalDigit d ≠ ',' := by decide

theorem readEscaped_plain {c : Char} (h1 : c ≠ '\\') (h2 : c ≠ '\'') (r : Text) : readEscaped (c :: r) = some (c, r) := by
  unfold readEscaped
  split
  · rename_i h; cases h
  · rename_i h
    exact absurd (List.cons.inj h).1 h1
  · rename_i h
    obtain ⟨rfl, rfl⟩ := List.cons.inj h
    rw [if_neg h2]

theorem readEscaped_cEscape {c : Char} (hq : c ≠ '"') (hb : c.toNat < 256) (r : Text) :
    readEscaped ((cEscape c).map quoteToApostrophe ++ r) = some (c, r) := by
  unfold cEscape
  split
  · rename_i h; subst h; rfl
  split
  · rename_i h; subst h; rfl
  split
  · rename_i h; subst h; rfl
  split
  · rename_i h; subst h; rfl
  split
  · rename_i h; subst h; rfl
  rename_i n1 n2 n3 n5 n6
  split
  · obtain ⟨a1, a2, a3, a4, a5, a6, a7, _⟩ := octalDigit_facts (c.toNat / 64) (by omega)
    obtain ⟨b1, _, _, _, _, _, b7, _⟩ := octalDigit_facts (c.toNat / 8 % 8) (by omega)
    obtain ⟨c1, _, _, _, _, _, c7, _⟩ := octalDigit_facts (c.toNat % 8) (by omega)
    have e0 : quoteToApostrophe '\\' = '\\' := rfl
    simp only [List.map_cons, List.map_nil, e0]
    rw [show quoteToApostrophe (octalDigit (c.toNat / 64)) = octalDigit (c.toNat / 64) from if_neg a7,
      show quoteToApostrophe (octalDigit (c.toNat / 8 % 8)) = octalDigit (c.toNat / 8 % 8) from if_neg b7,
      show quoteToApostrophe (octalDigit (c.toNat % 8)) = octalDigit (c.toNat % 8) from if_neg c7]
    simp only [List.cons_append, List.nil_append, readEscaped, if_neg a2, if_neg a3, if_neg a4, if_neg a5, if_neg a6, a1, b1, c1]
    have : (48 + c.toNat / 64 - 48) * 64 + (48 + c.toNat / 8 % 8 - 48) * 8 + (48 + c.toNat % 8 - 48) = c.toNat := by omega
    rw [this, Char.ofNat_toNat]
  · simp only [List.map_cons, List.map_nil, List.cons_append, List.nil_append]
    rw [show quoteToApostrophe c = c from if_neg hq]
    exact readEscaped_plain n6 n5 r

/-- A string of bytes without quotation marks. -/
def QuoteFree (s : Text) : Prop := ∀ c ∈ s, c ≠ '"' ∧ c.toNat < 256

theorem escaped_split : ∀ (s t : Text) {r r' : Text}, QuoteFree s → QuoteFree t →
    (s.flatMap cEscape).map quoteToApostrophe ++ '\'' :: r = (t.flatMap cEscape).map quoteToApostrophe ++ '\'' :: r' → s = t ∧ r = r'
  | [], [], r, r', _, _, h => ⟨rfl, (List.cons.inj h).2⟩
  | [], d :: t, r, r', _, ht, h => by
    have := congrArg readEscaped h
    rw [List.flatMap_cons, List.map_append, List.append_assoc,
      readEscaped_cEscape (ht d (List.mem_cons_self ..)).1 (ht d (List.mem_cons_self ..)).2] at this
    simp [readEscaped] at this
  | c :: s, [], r, r', hs, _, h => by
    have := congrArg readEscaped h
    rw [List.flatMap_cons, List.map_append, List.append_assoc,
      readEscaped_cEscape (hs c (List.mem_cons_self ..)).1 (hs c (List.mem_cons_self ..)).2] at this
    simp [readEscaped] at this
  | c :: s, d :: t, r, r', hs, ht, h => by
    have := congrArg readEscaped h
    rw [List.flatMap_cons, List.flatMap_cons, List.map_append, List.map_append, List.append_assoc, List.append_assoc,
      readEscaped_cEscape (hs c (List.mem_cons_self ..)).1 (hs c (List.mem_cons_self ..)).2,
      readEscaped_cEscape (ht d (List.mem_cons_self ..)).1 (ht d (List.mem_cons_self ..)).2] at this
    simp only [Option.some.injEq, Prod.mk.injEq] at this
    obtain ⟨h1, h2⟩ := escaped_split s t (fun x hx => hs x (List.mem_cons_of_mem _ hx)) (fun x hx => ht x (List.mem_cons_of_mem _ hx)) this.2
    exact ⟨by rw [this.1, h1], h2⟩

/-! ## Values and fields -/

theorem split_at {x : Char} : ∀ {a b : Text} {r r' : Text}, x ∉ a → x ∉ b → a ++ x :: r = b ++ x :: r' → a = b ∧ r = r'
  | [], [], _, _, _, _, h => ⟨rfl, (List.cons.inj h).2⟩
  | [], c :: b, _, _, _, hb, h => absurd (by rw [(List.cons.inj h).1]; exact List.mem_cons_self ..) hb
  | c :: a, [], _, _, ha, _, h => absurd (by rw [← (List.cons.inj h).1]; exact List.mem_cons_self ..) ha
  | c :: a, d :: b, _, _, ha, hb, h => by
    obtain ⟨h1, h2⟩ := List.cons.inj h
    obtain ⟨h3, h4⟩ := split_at (fun hm => ha (List.mem_cons_of_mem _ hm)) (fun hm => hb (List.mem_cons_of_mem _ hm)) h2
    exact ⟨by rw [h1, h3], h4⟩

/-- The text of a number: no comma, quotation mark or blank, and not empty. -/
def PlainNumber (t : Text) : Prop := t ≠ [] ∧ ∀ c ∈ t, c ≠ ',' ∧ c ≠ '"' ∧ isSpace c = false

/-- Values that are printed without loss. -/
def MetaValue.Clean : MetaValue → Prop
  | .plain t => PlainNumber t
  | .quoted s => QuoteFree s

/-- Both are numbers or both are strings. -/
def MetaValue.sameKind : MetaValue → MetaValue → Prop
  | .plain _, .plain _ => True
  | .quoted _, .quoted _ => True
  | _, _ => False

theorem map_quote_plain : ∀ {t : Text}, (∀ c ∈ t, c ≠ '"') → t.map quoteToApostrophe = t
  | [], _ => rfl
  | c :: t, h => by
    rw [List.map_cons, map_quote_plain (fun x hx => h x (List.mem_cons_of_mem _ hx)),
      show quoteToApostrophe c = c from if_neg (h c (List.mem_cons_self ..))]

theorem quoted_text (s : Text) : (MetaValue.quoted s).text.map quoteToApostrophe =
    '\'' :: ((s.flatMap cEscape).map quoteToApostrophe ++ ['\'']) := by
  simp only [MetaValue.text, List.map_cons, List.map_append, List.map_nil]
  rfl

theorem value_split : ∀ {v w : MetaValue} {r r' : Text}, v.Clean → w.Clean → v.sameKind w →
    v.text.map quoteToApostrophe ++ ',' :: r = w.text.map quoteToApostrophe ++ ',' :: r' → v = w ∧ r = r'
  | .plain t, .plain u, r, r', hv, hw, _, h => by
    simp only [MetaValue.text] at h
    rw [map_quote_plain (fun c hc => (hv.2 c hc).2.1), map_quote_plain (fun c hc => (hw.2 c hc).2.1)] at h
    obtain ⟨h1, h2⟩ := split_at (fun hm => (hv.2 _ hm).1 rfl) (fun hm => (hw.2 _ hm).1 rfl) h
    exact ⟨by rw [h1], h2⟩
  | .quoted s, .quoted t, r, r', hv, hw, _, h => by
    rw [quoted_text, quoted_text, List.cons_append, List.cons_append, List.append_assoc, List.append_assoc] at h
    obtain ⟨h1, h2⟩ := escaped_split s t hv hw (List.cons.inj h).2
    exact ⟨by rw [h1], (List.cons.inj h2).2⟩
  | .plain _, .quoted _, _, _, _, _, h, _ => h.elim
  | .quoted _, .plain _, _, _, _, _, h, _ => h.elim

/-- The fields with a comma after each. -/
def commaFields (fields : List (Text × Option MetaValue)) : Text :=
  fields.flatMap (fun f => match f.2 with
    | none => []
    | some v => f.1 ++ ':' :: ' ' :: (v.text.map quoteToApostrophe ++ [',']))

theorem commaFields_none (n : Text) (fs : List (Text × Option MetaValue)) : commaFields ((n, none) :: fs) = commaFields fs := rfl

theorem commaFields_some (n : Text) (v : MetaValue) (fs : List (Text × Option MetaValue)) :
    commaFields ((n, some v) :: fs) = n ++ ':' :: ' ' :: (v.text.map quoteToApostrophe ++ ',' :: commaFields fs) := by
  simp [commaFields]

theorem commaFields_head : ∀ fs : List (Text × Option MetaValue), commaFields fs = [] ∨ ∃ n ∈ fs.map Prod.fst, ∃ r, commaFields fs = n ++ ':' :: r
  | [] => .inl rfl
  | (n, some v) :: fs => .inr ⟨n, by simp, _, commaFields_some n v fs⟩
  | (n, none) :: fs => by
    rcases commaFields_head fs with h | ⟨m, hm, r, h⟩
    · exact .inl h
    · exact .inr ⟨m, by simp only [List.map_cons, List.mem_cons]; exact .inr hm, r, h⟩

/-- Two lists of fields with the same names and kinds, and clean values. -/
def AlikeFields (f g : Text × Option MetaValue) : Prop :=
  f.1 = g.1 ∧ (∀ v, f.2 = some v → v.Clean) ∧ (∀ w, g.2 = some w → w.Clean) ∧ ∀ v w, f.2 = some v → g.2 = some w → v.sameKind w

theorem alike_names {fs gs : List (Text × Option MetaValue)} (h : List.Forall₂ AlikeFields fs gs) : gs.map Prod.fst = fs.map Prod.fst := by
  induction h with
  | nil => rfl
  | cons h _ ih => rw [List.map_cons, List.map_cons, ih, h.1]

theorem commaFields_inj {fs gs : List (Text × Option MetaValue)} (h : List.Forall₂ AlikeFields fs gs)
    (hn : (fs.map Prod.fst).Nodup) (hc : ∀ n ∈ fs.map Prod.fst, ':' ∉ n) (he : commaFields fs = commaFields gs) : fs = gs := by
  induction h with
  | nil => rfl
  | @cons f g fs gs hfg hrest ih =>
    obtain ⟨n, v⟩ := f
    obtain ⟨m, w⟩ := g
    obtain ⟨hnm, h1, h2, h3⟩ := hfg
    have hnm' : n = m := hnm
    subst hnm'
    rw [List.map_cons, List.nodup_cons] at hn
    have hc' : ∀ n ∈ fs.map Prod.fst, ':' ∉ n := fun x hx => hc x (List.mem_cons_of_mem _ hx)
    have hcn : ':' ∉ n := hc n (List.mem_cons_self ..)
    have clash : ∀ (hs : List (Text × Option MetaValue)) (r : Text), hs.map Prod.fst = fs.map Prod.fst → commaFields hs = n ++ ':' :: r → False := by
      intro hs r hnames hr
      rcases commaFields_head hs with h | ⟨k, hk, r', h⟩
      · rw [h] at hr
        simp at hr
      · rw [h] at hr
        rw [hnames] at hk
        have := (split_at (hc' k hk) hcn hr).1
        rw [this] at hk
        exact hn.1 hk
    cases v with
    | none =>
      cases w with
      | none => rw [ih hn.2 hc' he]
      | some w =>
        rw [commaFields_none, commaFields_some] at he
        exact (clash fs _ rfl he).elim
    | some v =>
      cases w with
      | none =>
        rw [commaFields_none, commaFields_some] at he
        exact (clash gs _ (alike_names hrest) he.symm).elim
      | some w =>
        rw [commaFields_some, commaFields_some] at he
        have he' := (List.cons.inj (List.cons.inj (List.append_cancel_left he)).2).2
        obtain ⟨h4, h5⟩ := value_split (h1 v rfl) (h2 w rfl) (h3 v w rfl rfl) he'
        rw [h4, ih hn.2 hc' h5]

/-! ## Trimming and replacing -/

theorem map_newline_id : ∀ {t : Text}, '\n' ∉ t → t.map newlineToComma = t
  | [], _ => rfl
  | c :: t, h => by
    rw [List.map_cons, map_newline_id (fun hx => h (List.mem_cons_of_mem _ hx)),
      show newlineToComma c = c from if_neg (fun hc => h (by rw [hc]; exact List.mem_cons_self ..))]

theorem newline_notMem_cEscape (c : Char) : '\n' ∉ cEscape c := by
  unfold cEscape
  repeat' split
  all_goals try decide
  · rename_i h
    intro hm
    have hd : ∀ d < 8, octalDigit d ≠ '\n' := by decide
    simp only [List.mem_cons, List.not_mem_nil, or_false] at hm
    rcases hm with hm | hm | hm | hm
    · exact absurd hm (by decide)
    · have h2 : (octalDigit (c.toNat / 64)).toNat = 10 := by rw [← hm]; rfl
      unfold octalDigit Char.ofNat at h2
      have hcv : c.toNat.isValidChar := c.valid
      split at h2
      · have h3 : 48 + c.toNat / 64 = 10 := h2
        omega
      · rename_i hv
        refine hv ?_
        unfold Nat.isValidChar at hcv ⊢
        omega
    · exact hd _ (by omega) hm.symm
    · exact hd _ (by omega) hm.symm
  · rename_i h1 _ _ _ _ _ _
    simp only [List.mem_singleton]
    exact fun hm => h1 hm.symm

theorem newline_notMem_text {v : MetaValue} (hv : v.Clean) : '\n' ∉ v.text := by
  cases v with
  | plain t =>
    intro hm
    have := (hv.2 _ hm).2.2
    exact absurd this (by decide)
  | quoted s =>
    simp only [MetaValue.text, List.mem_cons, List.mem_append, List.mem_flatMap, List.not_mem_nil, or_false, not_or, not_exists, not_and]
    exact ⟨by decide, fun c _ => newline_notMem_cEscape c, by decide⟩

theorem replaced_debugString : ∀ (fs : List (Text × Option MetaValue)), (∀ n ∈ fs.map Prod.fst, '\n' ∉ n ∧ '"' ∉ n) →
    (∀ f ∈ fs, ∀ v, f.2 = some v → v.Clean) →
    ((debugString fs).map newlineToComma).map quoteToApostrophe = commaFields fs
  | [], _, _ => rfl
  | (n, none) :: fs, h1, h2 => replaced_debugString fs (fun x hx => h1 x (List.mem_cons_of_mem _ hx)) (fun f hf => h2 f (List.mem_cons_of_mem _ hf))
  | (n, some v) :: fs, h1, h2 => by
    have hn := h1 n (List.mem_cons_self ..)
    have hv := h2 (n, some v) (List.mem_cons_self ..) v rfl
    have ih := replaced_debugString fs (fun x hx => h1 x (List.mem_cons_of_mem _ hx)) (fun f hf => h2 f (List.mem_cons_of_mem _ hf))
    have e : debugString ((n, some v) :: fs) = n ++ ':' :: ' ' :: (v.text ++ '\n' :: debugString fs) := by simp [debugString]
    rw [e, commaFields_some, ← ih]
    simp only [List.map_append, List.map_cons]
    rw [map_newline_id hn.1, map_newline_id (newline_notMem_text hv), map_quote_plain (fun c hc hq => hn.2 (by rw [← hq]; exact hc))]
    rfl

theorem trim_line {t : Text} {a b : Char} (ha : isSpace a = false) (hb : isSpace b = false) (h1 : t.head? = some a) (h2 : t.getLast? = some b) :
    trim (t ++ ['\n']) = t := by
  obtain ⟨t', rfl⟩ : ∃ t', t = a :: t' := by
    cases t with
    | nil => simp at h1
    | cons x t' => simp only [List.head?_cons, Option.some.injEq] at h1; exact ⟨t', by rw [h1]⟩
  unfold trim
  rw [List.cons_append, List.dropWhile_cons_of_neg (by simp [ha]), ← List.cons_append, List.reverse_append]
  rw [show (['\n'] : Text).reverse = ['\n'] from rfl, List.cons_append, List.nil_append, List.dropWhile_cons_of_pos (by decide)]
  have hrev : (a :: t').reverse.head? = some b := by rw [List.head?_reverse]; exact h2
  cases hr : (a :: t').reverse with
  | nil => simp at hr
  | cons x u =>
    rw [hr] at hrev
    simp only [List.head?_cons, Option.some.injEq] at hrev
    subst hrev
    rw [List.dropWhile_cons_of_neg (by simp [hb]), ← hr, List.reverse_reverse]

theorem text_last {v : MetaValue} (hv : v.Clean) : ∃ b, v.text.getLast? = some b ∧ isSpace b = false := by
  cases v with
  | plain t =>
    refine ⟨t.getLast hv.1, List.getLast?_eq_getLast_of_ne_nil hv.1, (hv.2 _ (List.getLast_mem hv.1)).2.2⟩
  | quoted s =>
    refine ⟨'"', ?_, by decide⟩
    simp only [MetaValue.text]
    rw [← List.cons_append, List.getLast?_concat]

theorem debugString_shape : ∀ (fs : List (Text × Option MetaValue)), (∀ n ∈ fs.map Prod.fst, ∃ a, n.head? = some a ∧ isSpace a = false) →
    (∀ f ∈ fs, ∀ v, f.2 = some v → v.Clean) →
    debugString fs = [] ∨ ∃ t a b, debugString fs = t ++ ['\n'] ∧ t.head? = some a ∧ t.getLast? = some b ∧ isSpace a = false ∧ isSpace b = false
  | [], _, _ => .inl rfl
  | (n, none) :: fs, h1, h2 => debugString_shape fs (fun x hx => h1 x (List.mem_cons_of_mem _ hx)) (fun f hf => h2 f (List.mem_cons_of_mem _ hf))
  | (n, some v) :: fs, h1, h2 => by
    right
    obtain ⟨a, ha, has⟩ := h1 n (List.mem_cons_self ..)
    obtain ⟨b, hb, hbs⟩ := text_last (h2 (n, some v) (List.mem_cons_self ..) v rfl)
    have e : debugString ((n, some v) :: fs) = n ++ ':' :: ' ' :: (v.text ++ '\n' :: debugString fs) := by simp [debugString]
    have hhead : ∀ r : Text, (n ++ r).head? = some a := by
      intro r
      rw [List.head?_append, ha]
      rfl
    rcases debugString_shape fs (fun x hx => h1 x (List.mem_cons_of_mem _ hx)) (fun f hf => h2 f (List.mem_cons_of_mem _ hf)) with h | ⟨t, a', b', h3, h4, h5, h6, h7⟩
    · refine ⟨n ++ ':' :: ' ' :: v.text, a, b, by rw [e, h]; simp, hhead _, ?_, has, hbs⟩
      rw [List.getLast?_append]
      have : (':' :: ' ' :: v.text).getLast? = some b := by
        rw [List.getLast?_cons, List.getLast?_cons, hb]
        rfl
      rw [this]
      rfl
    · refine ⟨n ++ ':' :: ' ' :: (v.text ++ '\n' :: t), a, b', by rw [e, h3]; simp, hhead _, ?_, has, h7⟩
      have hx : ∀ u : Text, (u ++ t).getLast? = some b' := by
        intro u
        rw [List.getLast?_append, h5]
        rfl
      have := hx (n ++ ':' :: ' ' :: (v.text ++ ['\n']))
      simpa using this

/-- The text of the configuration, up to the last comma, is the list of the fields. -/
theorem trimmed_text {fs : List (Text × Option MetaValue)} (hn : ∀ n ∈ fs.map Prod.fst, '\n' ∉ n ∧ '"' ∉ n)
    (ha : ∀ n ∈ fs.map Prod.fst, ∃ a, n.head? = some a ∧ isSpace a = false) (hv : ∀ f ∈ fs, ∀ v, f.2 = some v → v.Clean) :
    let t := ((trim (debugString fs)).map newlineToComma).map quoteToApostrophe
    (commaFields fs = [] ∧ t = []) ∨ (commaFields fs = t ++ [','] ∧ t ≠ []) := by
  have hr := replaced_debugString fs hn hv
  rcases debugString_shape fs ha hv with h | ⟨t, a, b, h1, h2, h3, h4, h5⟩
  · left
    rw [h] at hr ⊢
    exact ⟨hr.symm, rfl⟩
  · right
    rw [h1] at hr
    simp only [h1, trim_line h4 h5 h2 h3]
    rw [← hr]
    refine ⟨by simp only [List.map_append, List.map_cons, List.map_nil]; rfl, ?_⟩
    intro h
    rw [List.map_eq_nil_iff, List.map_eq_nil_iff] at h
    rw [h] at h2
    simp at h2

/-! ## C193 -/

/-- Printing of numbers that loses nothing and needs no blanks, commas or quotation marks; zero is the only number that counts as zero (0 and -0 are
taken for one number). -/
structure MetaPrint.Faithful {D : Type} [Zero D] (pr : MetaPrint D) : Prop where
  int : Function.Injective pr.int ∧ ∀ n, PlainNumber (pr.int n)
  float : Function.Injective pr.float ∧ ∀ x, PlainNumber (pr.float x)
  double : Function.Injective pr.double ∧ ∀ x, PlainNumber (pr.double x)
  zero : ∀ x, pr.isZero x = true → x = 0

/-- C193, the full statement: the meta info of a model tells the configuration that it was trained with, apart from the lists of columns. -/
def C193_full : Prop :=
  ∀ (D : Type) [Zero D] (pr : MetaPrint D) (time duration : Text) (c c' : MetaConfig D), pr.Faithful →
    metaInfo pr time duration c = metaInfo pr time duration c' → c = c'

/-- The strings of a configuration consist of bytes other than quotation marks. -/
def MetaConfig.QuoteFree {D : Type} (c : MetaConfig D) : Prop :=
  Gbdt.QuoteFree c.weightColumn ∧ Gbdt.QuoteFree c.targetColumn ∧ Gbdt.QuoteFree c.groupColumn ∧ Gbdt.QuoteFree c.lossFunc

section
variable {D : Type} [Zero D] {pr : MetaPrint D}

theorem intField_clean (h : pr.Faithful) (n : Int) : ∀ v, pr.intField n = some v → v.Clean := by
  intro v hv
  unfold MetaPrint.intField at hv
  split at hv
  · cases hv
  · cases hv; exact h.int.2 n

theorem floatField_clean (h : pr.Faithful) (x : D) : ∀ v, pr.floatField x = some v → v.Clean := by
  intro v hv
  unfold MetaPrint.floatField at hv
  split at hv
  · cases hv
  · cases hv; exact h.float.2 x

theorem doubleField_clean (h : pr.Faithful) (x : D) : ∀ v, pr.doubleField x = some v → v.Clean := by
  intro v hv
  unfold MetaPrint.doubleField at hv
  split at hv
  · cases hv
  · cases hv; exact h.double.2 x

theorem stringField_clean {s : Text} (h : QuoteFree s) : ∀ v, stringField s = some v → v.Clean := by
  intro v hv
  unfold stringField at hv
  split at hv
  · cases hv
  · cases hv; exact h

theorem boolField_clean (b : Bool) : ∀ v, boolField b = some v → v.Clean := by
  intro v hv
  unfold boolField at hv
  split at hv
  · cases hv; exact ⟨by decide, by decide⟩
  · cases hv

theorem intField_inj (h : pr.Faithful) {n m : Int} (he : pr.intField n = pr.intField m) : n = m := by
  unfold MetaPrint.intField at he
  split at he <;> split at he
  · omega
  · cases he
  · cases he
  · simp only [Option.some.injEq, MetaValue.plain.injEq] at he
    exact h.int.1 he

theorem floatField_inj (h : pr.Faithful) {x y : D} (he : pr.floatField x = pr.floatField y) : x = y := by
  unfold MetaPrint.floatField at he
  split at he <;> split at he
  · rename_i h1 h2; rw [h.zero x h1, h.zero y h2]
  · cases he
  · cases he
  · simp only [Option.some.injEq, MetaValue.plain.injEq] at he
    exact h.float.1 he

theorem doubleField_inj (h : pr.Faithful) {x y : D} (he : pr.doubleField x = pr.doubleField y) : x = y := by
  unfold MetaPrint.doubleField at he
  split at he <;> split at he
  · rename_i h1 h2; rw [h.zero x h1, h.zero y h2]
  · cases he
  · cases he
  · simp only [Option.some.injEq, MetaValue.plain.injEq] at he
    exact h.double.1 he

theorem stringField_inj {s t : Text} (he : stringField s = stringField t) : s = t := by
  unfold stringField at he
  split at he <;> split at he
  · rename_i h1 h2; rw [h1, h2]
  · cases he
  · cases he
  · simpa using he

theorem boolField_inj {a b : Bool} (he : boolField a = boolField b) : a = b := by
  revert he; cases a <;> cases b <;> decide

/-- **C193, what holds**: if the strings of two configurations have no quotation marks, different configurations have different meta infos.
Missing: strings with quotation marks (`C193_refuted`). -/
theorem C193_tells_partial (hp : pr.Faithful) {time duration : Text} {c c' : MetaConfig D} (hc : c.QuoteFree) (hc' : c'.QuoteFree)
    (h : metaInfo pr time duration c = metaInfo pr time duration c') : c = c' := by
  unfold metaInfo at h
  have ht := List.append_cancel_right (List.append_cancel_left (List.append_cancel_left (List.append_cancel_left
    (List.append_cancel_left (List.append_cancel_left h)))))
  have clean : ∀ c : MetaConfig D, c.QuoteFree → ∀ f ∈ c.fields pr, ∀ v, f.2 = some v → v.Clean := by
    intro c hc f hf
    simp only [MetaConfig.fields, List.mem_cons, List.not_mem_nil, or_false] at hf
    rcases hf with rfl | rfl | rfl | rfl | rfl | rfl | rfl | rfl | rfl | rfl | rfl | rfl | rfl | rfl | rfl | rfl | rfl | rfl
    all_goals first
      | exact intField_clean hp _
      | exact floatField_clean hp _
      | exact doubleField_clean hp _
      | exact boolField_clean _
      | exact stringField_clean hc.1
      | exact stringField_clean hc.2.1
      | exact stringField_clean hc.2.2.1
      | exact stringField_clean hc.2.2.2
  have names : ∀ c : MetaConfig D, (c.fields pr).map Prod.fst = ["num_trees".toList, "num_leaves".toList, "shrinkage".toList, "min_gain".toList,
      "l2_lambda".toList, "example_sampling_rate".toList, "feature_sampling_rate".toList, "eval_interval".toList, "weight_column".toList,
      "target_column".toList, "binarize_target".toList, "group_column".toList, "loss_func".toList, "pair_sampling_rate".toList,
      "pair_weight_by_delta_target".toList, "lambdamart_dcg_base".toList, "min_hessian".toList, "equal_group_weight".toList] := fun _ => rfl
  have n1 : ∀ c : MetaConfig D, ∀ n ∈ (c.fields pr).map Prod.fst, '\n' ∉ n ∧ '"' ∉ n := by
    intro c; rw [names]; decide
  have n2 : ∀ c : MetaConfig D, ∀ n ∈ (c.fields pr).map Prod.fst, ∃ a, n.head? = some a ∧ isSpace a = false := by
    intro c n hn
    rw [names] at hn
    have : n.head?.any (fun a => !isSpace a) = true := by
      revert n; decide
    cases hh : n.head? with
    | none => rw [hh] at this; simp at this
    | some a => rw [hh] at this; exact ⟨a, rfl, by simpa using this⟩
  have hfields : commaFields (c.fields pr) = commaFields (c'.fields pr) := by
    have a1 := trimmed_text (n1 c) (n2 c) (clean c hc)
    have a2 := trimmed_text (n1 c') (n2 c') (clean c' hc')
    simp only [← metaConfigText.eq_def] at a1 a2
    rcases a1 with ⟨e1, t1⟩ | ⟨e1, t1⟩ <;> rcases a2 with ⟨e2, t2⟩ | ⟨e2, t2⟩
    · rw [e1, e2]
    · rw [← ht] at t2; exact absurd t1 t2
    · rw [ht] at t1; exact absurd t2 t1
    · rw [e1, e2, ht]
  have hall : List.Forall₂ AlikeFields (c.fields pr) (c'.fields pr) := by
    have kind_plain : ∀ {o o' : Option MetaValue}, (∀ v, o = some v → ∃ t, v = .plain t) → (∀ v, o' = some v → ∃ t, v = .plain t) →
        ∀ v w, o = some v → o' = some w → v.sameKind w := by
      intro o o' h1 h2 v w hv hw
      obtain ⟨t, rfl⟩ := h1 v hv
      obtain ⟨u, rfl⟩ := h2 w hw
      trivial
    have kind_string : ∀ s s' : Text, ∀ v w, stringField s = some v → stringField s' = some w → v.sameKind w := by
      intro s s' v w hv hw
      unfold stringField at hv hw
      split at hv
      · cases hv
      · split at hw
        · cases hw
        · cases hv; cases hw; trivial
    have ki : ∀ n v, pr.intField n = some v → ∃ t, v = .plain t := by
      intro n v hv; unfold MetaPrint.intField at hv; split at hv
      · cases hv
      · cases hv; exact ⟨_, rfl⟩
    have kf : ∀ n v, pr.floatField n = some v → ∃ t, v = .plain t := by
      intro n v hv; unfold MetaPrint.floatField at hv; split at hv
      · cases hv
      · cases hv; exact ⟨_, rfl⟩
    have kd : ∀ n v, pr.doubleField n = some v → ∃ t, v = .plain t := by
      intro n v hv; unfold MetaPrint.doubleField at hv; split at hv
      · cases hv
      · cases hv; exact ⟨_, rfl⟩
    have kb : ∀ n v, boolField n = some v → ∃ t, v = .plain t := by
      intro n v hv; unfold boolField at hv; split at hv
      · cases hv; exact ⟨_, rfl⟩
      · cases hv
    have fi : ∀ (n : Text) a b, AlikeFields (n, pr.intField a) (n, pr.intField b) := fun n a b =>
      ⟨rfl, intField_clean hp a, intField_clean hp b, kind_plain (ki a) (ki b)⟩
    have ff : ∀ (n : Text) a b, AlikeFields (n, pr.floatField a) (n, pr.floatField b) := fun n a b =>
      ⟨rfl, floatField_clean hp a, floatField_clean hp b, kind_plain (kf a) (kf b)⟩
    have fd : ∀ (n : Text) a b, AlikeFields (n, pr.doubleField a) (n, pr.doubleField b) := fun n a b =>
      ⟨rfl, doubleField_clean hp a, doubleField_clean hp b, kind_plain (kd a) (kd b)⟩
    have fb : ∀ (n : Text) a b, AlikeFields (n, boolField a) (n, boolField b) := fun n a b =>
      ⟨rfl, boolField_clean a, boolField_clean b, kind_plain (kb a) (kb b)⟩
    have fs : ∀ (n : Text) a b, QuoteFree a → QuoteFree b → AlikeFields (n, stringField a) (n, stringField b) := fun n a b ha hb =>
      ⟨rfl, stringField_clean ha, stringField_clean hb, kind_string a b⟩
    unfold MetaConfig.fields
    exact .cons (fi _ _ _) (.cons (fi _ _ _) (.cons (ff _ _ _) (.cons (fd _ _ _) (.cons (fd _ _ _) (.cons (ff _ _ _) (.cons (ff _ _ _)
      (.cons (fi _ _ _) (.cons (fs _ _ _ hc.1 hc'.1) (.cons (fs _ _ _ hc.2.1 hc'.2.1) (.cons (fb _ _ _) (.cons (fs _ _ _ hc.2.2.1 hc'.2.2.1)
      (.cons (fs _ _ _ hc.2.2.2 hc'.2.2.2) (.cons (ff _ _ _) (.cons (fb _ _ _) (.cons (ff _ _ _) (.cons (fd _ _ _) (.cons (fb _ _ _)
      .nil)))))))))))))))))
  have heq := commaFields_inj hall (by rw [names]; decide) (by rw [names]; decide) hfields
  unfold MetaConfig.fields at heq
  simp only [List.cons.injEq, Prod.mk.injEq, true_and, and_true] at heq
  obtain ⟨e1, e2, e3, e4, e5, e6, e7, e8, e9, e10, e11, e12, e13, e14, e15, e16, e17, e18⟩ := heq
  obtain ⟨a1, a2, a3, a4, a5, a6, a7, a8, a9, a10, a11, a12, a13, a14, a15, a16, a17, a18⟩ := c
  obtain ⟨b1, b2, b3, b4, b5, b6, b7, b8, b9, b10, b11, b12, b13, b14, b15, b16, b17, b18⟩ := c'
  simp only at *
  rw [intField_inj hp e1, intField_inj hp e2, floatField_inj hp e3, doubleField_inj hp e4, doubleField_inj hp e5, floatField_inj hp e6,
    floatField_inj hp e7, intField_inj hp e8, stringField_inj e9, stringField_inj e10, boolField_inj e11, stringField_inj e12, stringField_inj e13,
    floatField_inj hp e14, boolField_inj e15, floatField_inj hp e16, doubleField_inj hp e17, boolField_inj e18]

/-- **C193.** The meta info is one line without quotation marks, whatever the configuration. -/
theorem C193_one_line {D : Type} (pr : MetaPrint D) {time duration : Text} (ht : '\n' ∉ time ∧ '"' ∉ time) (hd : '\n' ∉ duration ∧ '"' ∉ duration)
    (c : MetaConfig D) : '\n' ∉ metaInfo pr time duration c ∧ '"' ∉ metaInfo pr time duration c := by
  have key : ∀ t : Text, '\n' ∉ (t.map newlineToComma).map quoteToApostrophe ∧ '"' ∉ (t.map newlineToComma).map quoteToApostrophe := by
    intro t
    simp only [List.mem_map, not_exists, not_and]
    refine ⟨?_, ?_⟩
    · rintro x ⟨y, _, hx⟩ h
      unfold quoteToApostrophe at h
      split at h
      · exact absurd h (by decide)
      · unfold newlineToComma at hx
        split at hx
        · rw [← hx] at h; exact absurd h (by decide)
        · rename_i hne; exact hne (hx.trans h)
    · rintro x _ h
      unfold quoteToApostrophe at h
      split at h
      · exact absurd h (by decide)
      · rename_i hne; exact hne h
  have k := key (trim (debugString (c.fields pr)))
  have l1 : '\n' ∉ "GBDT forest trained at ".toList ∧ '"' ∉ "GBDT forest trained at ".toList := by decide
  have l2 : '\n' ∉ " for ".toList ∧ '"' ∉ " for ".toList := by decide
  have l3 : '\n' ∉ " with the following config: ".toList ∧ '"' ∉ " with the following config: ".toList := by decide
  have l4 : '\n' ∉ ['.'] ∧ '"' ∉ ['.'] := by decide
  unfold metaInfo metaConfigText
  simp only [List.mem_append, not_or]
  exact ⟨⟨l1.1, ht.1, l2.1, hd.1, l3.1, k.1, l4.1⟩, ⟨l1.2, ht.2, l2.2, hd.2, l3.2, k.2, l4.2⟩⟩

end

/-- Numbers in unary, with a sign. -/
def unaryText (n : Int) : Text := (if n < 0 then '-' else '+') :: List.replicate n.natAbs '1'

theorem unaryText_faithful : Function.Injective unaryText ∧ ∀ n, PlainNumber (unaryText n) := by
  constructor
  · intro n m h
    unfold unaryText at h
    have h1 := (List.cons.inj h).1
    have h2 := congrArg List.length (List.cons.inj h).2
    simp only [List.length_replicate] at h2
    by_cases hn : n < 0 <;> by_cases hm : m < 0 <;> simp only [hn, hm, if_true, if_false] at h1
    · omega
    · exact absurd h1 (by decide)
    · exact absurd h1 (by decide)
    · omega
  · intro n
    refine ⟨by simp [unaryText], ?_⟩
    intro c hc
    simp only [unaryText, List.mem_cons, List.mem_replicate] at hc
    rcases hc with rfl | ⟨_, rfl⟩
    · split <;> decide
    · decide

/-- Integers as the numbers of a configuration. -/
def unaryPrint : MetaPrint Int := ⟨unaryText, unaryText, unaryText, fun x => decide (x = 0)⟩

theorem unaryPrint_faithful : unaryPrint.Faithful :=
  ⟨unaryText_faithful, unaryText_faithful, unaryText_faithful, fun _ h => of_decide_eq_true h⟩

/-- A configuration with a given weight column. -/
def metaSample (weight : String) : MetaConfig Int where
  numTrees := 2
  numLeaves := 3
  shrinkage := 1
  minGain := 0
  l2Lambda := 0
  exampleRate := 1
  featureRate := 1
  evalInterval := 0
  weightColumn := weight.toList
  targetColumn := "y, \n".toList
  binarize := true
  groupColumn := []
  lossFunc := "mse".toList
  pairRate := 0
  byDelta := false
  dcgBase := 0
  minHessian := -1
  equalWeight := false

example : metaConfigText unaryPrint (metaSample "w'") = ("num_trees: +11,num_leaves: +111,shrinkage: +1,example_sampling_rate: +1," ++
    "feature_sampling_rate: +1,weight_column: 'w\\'',target_column: 'y, \\n',binarize_target: true,loss_func: 'mse',min_hessian: -1").toList := by
  decide +kernel

/-- **C193 is false**: with the columns `w'` and `w"` for the weights the meta info is the same. -/
theorem C193_refuted : ¬ C193_full := by
  intro h
  have e := h Int unaryPrint [] [] (metaSample "w'") (metaSample "w\"") unaryPrint_faithful (by decide +kernel)
  have : (metaSample "w'").weightColumn = (metaSample "w\"").weightColumn := by rw [e]
  exact absurd this (by decide +kernel)

/-- Two configurations that the theorem applies to. -/
example : metaInfo unaryPrint [] [] (metaSample "w'") ≠ metaInfo unaryPrint [] [] (metaSample "v") := by
  have q : ∀ s : String, QuoteFree s.toList → (metaSample s).QuoteFree := by
    intro s hs
    exact ⟨hs, show QuoteFree "y, \n".toList by unfold QuoteFree; decide, show QuoteFree [] by unfold QuoteFree; decide,
      show QuoteFree "mse".toList by unfold QuoteFree; decide⟩
  intro h
  have e := C193_tells_partial unaryPrint_faithful (q "w'" (by unfold QuoteFree; decide)) (q "v" (by unfold QuoteFree; decide)) h
  have : (metaSample "w'").weightColumn = (metaSample "v").weightColumn := by rw [e]
  exact absurd this (by decide +kernel)

end Gbdt
