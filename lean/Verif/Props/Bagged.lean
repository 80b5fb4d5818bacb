import Verif.Lemmas.Bagged
import Verif.Props.FlatTrain

/-!
# C136-C139: bagging

`scripts/bagged.py` gives every row weight zero in one bag and one in the others; the score of a row by the bag that it is out of is its
out-of-bag score.
-/

set_option autoImplicit false
set_option linter.unusedSectionVars false

namespace Gbdt

open Outcome

/-! ## C136 -/

/-- **C136, bags.** Every row is out of exactly one bag. -/
theorem C136_once (hash : String → Int) {m : Nat} (hm : 0 < m) (row : Nat) : ∃! k, k < m ∧ inBag hash m row k = false := by
  have h0 : (0 : Int) < m := by exact_mod_cast hm
  have h1 := Int.emod_nonneg (hash (toString row)) h0.ne'
  have h2 := Int.emod_lt_of_pos (hash (toString row)) h0
  refine ⟨(hash (toString row) % (m : Int)).toNat, ⟨by omega, ?_⟩, ?_⟩
  · simp only [inBag, bne_eq_false_iff_eq]
    omega
  · rintro k ⟨_, hk⟩
    simp only [inBag, bne_eq_false_iff_eq] at hk
    omega

section bagging
variable {D A N : Type} [Dbl D] [LinearOrder A] [ThrOps A]

theorem mapM_some_get {α β : Type} {f : α → Option β} : ∀ {l : List α} {l' : List β}, l.mapM f = some l' →
    l'.length = l.length ∧ ∀ (i : Nat) a, l[i]? = some a → ∃ b, f a = some b ∧ l'[i]? = some b
  | [], l', h => by
    rw [List.mapM_nil] at h
    cases h
    exact ⟨rfl, fun i a h => by simp at h⟩
  | a :: l, l', h => by
    rw [List.mapM_cons] at h
    simp only [Option.bind_eq_bind, Option.bind_eq_some_iff, Option.pure_def, Option.some.injEq] at h
    obtain ⟨b, hb, bs, hbs, rfl⟩ := h
    obtain ⟨h1, h2⟩ := mapM_some_get hbs
    refine ⟨by simp [h1], ?_⟩
    rintro (_ | i) x hx
    · simp only [List.getElem?_cons_zero, Option.some.injEq] at hx
      subst hx
      exact ⟨b, hb, rfl⟩
    · rw [List.getElem?_cons_succ] at hx
      simpa using h2 i x hx

theorem mapM_ok_get {α β : Type} {f : α → Outcome β} : ∀ {l : List α} {l' : List β}, l.mapM f = ok l' →
    l'.length = l.length ∧ ∀ (i : Nat) a, l[i]? = some a → ∃ b, f a = ok b ∧ l'[i]? = some b
  | [], l', h => by
    rw [List.mapM_nil] at h
    cases h
    exact ⟨rfl, fun i a h => by simp at h⟩
  | a :: l, l', h => by
    rw [List.mapM_cons] at h
    obtain ⟨b, hb, h⟩ := bind_eq_ok.mp h
    obtain ⟨bs, hbs, h⟩ := bind_eq_ok.mp h
    cases h
    obtain ⟨h1, h2⟩ := mapM_ok_get hbs
    refine ⟨by simp [h1], ?_⟩
    rintro (_ | i) x hx
    · simp only [List.getElem?_cons_zero, Option.some.injEq] at hx
      subst hx
      exact ⟨b, hb, rfl⟩
    · rw [List.getElem?_cons_succ] at hx
      simpa using h2 i x hx

/-- The score of row `i` by the model of bag `k` at test point `t`, as it is in the score file. -/
def BagScore (b : Bagging D A N) (t : Int) (k i : Nat) (x : D) : Prop :=
  ∃ files scores, bagFiles b k = ok files ∧ files.lookup t = some scores ∧ scores[i]? = some x

omit [LinearOrder A] [ThrOps A] in
theorem bagScore_some {ofNat : Nat → D} {keep : Nat → Nat → Bool} {scores : List (List D)} {i : Nat} {v : D}
    (h : bagScore ofNat keep scores i = some v) : ∃ l : List D, ((List.range scores.length).filter (keep i)).mapM
      (fun k => scores[k]? >>= fun row => row[i]?) = some l ∧ meanOf ofNat l = some v := by
  unfold bagScore at h
  simp only [Option.bind_eq_bind, Option.bind_eq_some_iff] at h ⊢
  exact h

theorem mapM_some_map {α β : Type} {f : α → Option β} {g : α → β} : ∀ {l : List α} {l' : List β}, l.mapM f = some l' →
    (∀ a ∈ l, ∀ b, f a = some b → b = g a) → l' = l.map g
  | [], l', h, _ => by
    rw [List.mapM_nil] at h
    cases h
    rfl
  | a :: l, l', h, hg => by
    rw [List.mapM_cons] at h
    simp only [Option.bind_eq_bind, Option.bind_eq_some_iff, Option.pure_def, Option.some.injEq] at h
    obtain ⟨b, hb, bs, hbs, rfl⟩ := h
    rw [List.map_cons, hg a List.mem_cons_self b hb, mapM_some_map hbs (fun a ha => hg a (List.mem_cons_of_mem _ ha))]

/-- **C136, scores.** When the script has finished there is an in-bag and an out-of-bag score for every row, at every test point.  The
out-of-bag score of a row is its score by the one bag that it is out of (the mean of one number), the in-bag score is the mean of its
scores by all others. -/
theorem C136_scores {b : Bagging D A N} {res : List (Int × List D × List D)} (h : runBagging b = ok (some res)) {t : Int} {ins outs : List D}
    (ht : (t, ins, outs) ∈ res) :
    0 < b.numBags ∧ ins.length = bagRows b.first ∧ outs.length = bagRows b.first ∧
    ∀ i < bagRows b.first, ∃ (x : Nat → D) (out : Nat), (∀ k < b.numBags, BagScore b t k i (x k)) ∧
      out < b.numBags ∧ inBag b.hash b.numBags i out = false ∧
      outs[i]? = meanOf b.mc.ofNat [b.shown (x out)] ∧
      ins[i]? = meanOf b.mc.ofNat (((List.range b.numBags).filter (· ≠ out)).map (fun k => b.shown (x k))) := by
  unfold runBagging at h
  obtain ⟨bags, hbags, h⟩ := bind_eq_ok.mp h
  obtain ⟨hlen, hget⟩ := mapM_ok_get hbags
  rw [List.length_range] at hlen
  have hpos : 0 < b.numBags := by
    rw [← hlen]
    cases bags with
    | nil => cases h
    | cons => simp
  have hpoint : bagPoint b bags t = some (ins, outs) := by
    cases bags with
    | nil => cases h
    | cons files rest =>
      simp only [pure_eq, Outcome.ok.injEq] at h
      obtain ⟨j, hj⟩ := List.getElem?_of_mem ht
      obtain ⟨h1, h2⟩ := mapM_some_get h
      have hjl : j < (files.map Prod.fst).length := by
        rw [← h1]
        exact (List.getElem?_eq_some_iff.mp hj).1
      obtain ⟨p, hp, hp'⟩ := h2 j _ (List.getElem?_eq_getElem hjl)
      rw [hj] at hp'
      cases hp'
      obtain ⟨r, hr, he⟩ := Option.map_eq_some_iff.mp hp
      cases he
      exact hr
  unfold bagPoint at hpoint
  simp only [Option.bind_eq_bind, Option.bind_eq_some_iff, Option.pure_def, Option.some.injEq, Prod.mk.injEq] at hpoint
  obtain ⟨scores, hscores, ins', hins, outs', houts, rfl, rfl⟩ := hpoint
  obtain ⟨hsl, hsg⟩ := mapM_some_get hscores
  obtain ⟨hil, hig⟩ := mapM_some_get hins
  obtain ⟨hol, hog⟩ := mapM_some_get houts
  rw [List.length_range] at hil hol
  refine ⟨hpos, hil, hol, fun i hi => ?_⟩
  have hri : (List.range (bagRows b.first))[i]? = some i := by rw [List.getElem?_range hi]
  obtain ⟨v, hv, hv'⟩ := hig i i hri
  obtain ⟨u, hu, hu'⟩ := hog i i hri
  obtain ⟨lv, hlv, hmv⟩ := bagScore_some hv
  obtain ⟨lu, hlu, hmu⟩ := bagScore_some hu
  rw [hsl, hlen] at hlv hlu
  -- every bag has a score for the row
  have hall : ∀ k, k < b.numBags → ∃ x, BagScore b t k i x ∧ (scores[k]? >>= fun row => row[i]?) = some (b.shown x) := by
    intro k hk
    have hsome : ∃ z, (scores[k]? >>= fun row => row[i]?) = some z := by
      cases hin : inBag b.hash b.numBags i k with
      | true =>
        have hm : k ∈ (List.range b.numBags).filter (inBag b.hash b.numBags i) := by simp [hk, hin]
        obtain ⟨j, hj⟩ := List.getElem?_of_mem hm
        obtain ⟨z, hz, _⟩ := (mapM_some_get hlv).2 j k hj
        exact ⟨z, hz⟩
      | false =>
        have hm : k ∈ (List.range b.numBags).filter (fun k => !inBag b.hash b.numBags i k) := by simp [hk, hin]
        obtain ⟨j, hj⟩ := List.getElem?_of_mem hm
        obtain ⟨z, hz, _⟩ := (mapM_some_get hlu).2 j k hj
        exact ⟨z, hz⟩
    obtain ⟨z, hz⟩ := hsome
    obtain ⟨files, hfiles, hfk⟩ := hget k k (by rw [List.getElem?_range hk])
    obtain ⟨row, hrow, hrk⟩ := hsg k files hfk
    obtain ⟨sc, hsc, rfl⟩ := Option.map_eq_some_iff.mp hrow
    have hz0 := hz
    simp only [hrk, Option.bind_eq_bind, Option.bind_some, List.getElem?_map] at hz
    obtain ⟨x, hx, rfl⟩ := Option.map_eq_some_iff.mp hz
    exact ⟨x, ⟨files, sc, hfiles, hsc, hx⟩, hz0⟩
  obtain ⟨x0, _⟩ := hall 0 hpos
  let x : Nat → D := fun k => if hk : k < b.numBags then (hall k hk).choose else x0
  have hx : ∀ k < b.numBags, BagScore b t k i (x k) ∧ (scores[k]? >>= fun row => row[i]?) = some (b.shown (x k)) := by
    intro k hk
    have := (hall k hk).choose_spec
    simp only [x, dif_pos hk]
    exact this
  obtain ⟨out, ⟨hout, hout'⟩, huniq⟩ := C136_once b.hash hpos i
  have hrow : ∀ k, k < b.numBags → (inBag b.hash b.numBags i k = false ↔ k = out) :=
    fun k hk => ⟨fun h => huniq k ⟨hk, h⟩, fun h => h ▸ hout'⟩
  refine ⟨x, out, fun k hk => (hx k hk).1, hout, hout', ?_, ?_⟩
  · rw [hu', ← hmu]
    have hf : (List.range b.numBags).filter (fun k => !inBag b.hash b.numBags i k) = [out] := by
      have : ∀ k ∈ List.range b.numBags, (!inBag b.hash b.numBags i k) = (k == out) := by
        intro k hk
        have := hrow k (List.mem_range.mp hk)
        cases hb : inBag b.hash b.numBags i k <;> simp [hb] at this ⊢ <;> exact this
      rw [List.filter_congr this, List.filter_beq, List.count_eq_one_of_mem List.nodup_range (List.mem_range.mpr hout)]
      rfl
    rw [hf] at hlu
    have := mapM_some_map (g := fun k => b.shown (x k)) hlu (by
      intro k hk z hz
      rw [List.mem_singleton] at hk
      subst hk
      rw [(hx k hout).2] at hz
      exact (Option.some.inj hz).symm)
    rw [this]
    rfl
  · rw [hv', ← hmv]
    have hf : (List.range b.numBags).filter (inBag b.hash b.numBags i) = (List.range b.numBags).filter (· ≠ out) := by
      refine List.filter_congr (fun k hk => ?_)
      have := hrow k (List.mem_range.mp hk)
      cases hb : inBag b.hash b.numBags i k <;> simp [hb] at this ⊢ <;> exact this
    rw [hf] at hlv
    have := mapM_some_map (g := fun k => b.shown (x k)) hlv (by
      intro k hk z hz
      have hk' := List.mem_range.mp (List.mem_filter.mp hk).1
      rw [(hx k hk').2] at hz
      exact (Option.some.inj hz).symm)
    rw [this]

end bagging

/-! ## C137 -/

section disks
variable {D A N : Type} [LinearOrder A]

theorem bagDisk_weights (b : Bagging D A N) (k : Nat) :
    (b.bagDisk k).files "bagging_weights" = some (bagWeights b.hash b.numBags (bagRows b.first) k) := by
  simp [Bagging.bagDisk, findFlatfile]

theorem bagDisk_other (b : Bagging D A N) (k : Nat) {name : String} (h : name ≠ "bagging_weights") :
    (b.bagDisk k).files name = b.disk.files name := by
  simp [Bagging.bagDisk, findFlatfile, h]

theorem rawType_line : '\n' ∉ "# dtype=raw_floats".toList ∧ "# dtype=raw_floats".toList.getLast? ≠ some '\r' := by decide

theorem bagWeights_load (fmax : A) (parse : Text → Option (Fl A)) (hash : String → Int) (m rows k : Nat) :
    loadFile fmax parse (bagWeights hash m rows k) = ok (some (.raw ⟨.ok, (List.range rows).map (fun i =>
      (parse (if inBag hash m i k then ['1'] else ['0'])).getD .nan)⟩)) := by
  have hcell : ∀ t ∈ (List.range rows).map (fun i => if inBag hash m i k then ['1'] else ['0']), LineCell t := by
    intro t ht
    obtain ⟨i, _, rfl⟩ := List.mem_map.mp ht
    split <;> exact ⟨by decide, by decide, by decide⟩
  have hrows : flatRows (bagWeights hash m rows k) = (List.range rows).map (fun i => if inBag hash m i k then ['1'] else ['0']) := by
    unfold flatRows bagWeights
    dsimp only
    rw [fileLines_print _ (fun t h => by
      rcases List.mem_cons.mp h with rfl | h
      · exact rawType_line
      · exact ⟨(hcell t h).1, (hcell t h).2.1⟩)]
    rw [if_pos List.getLast?_concat, List.dropLast_concat, List.filter_cons_of_neg (by decide), List.filter_eq_self.mpr]
    intro t h
    simpa using (hcell t h).2.2
  rw [C19_flatfile_rows, hrows]
  unfold bagWeights
  rw [head_print rawType_line, if_neg (by decide), if_pos rfl, List.map_map]
  rfl

theorem column_files {d d' : FlatDisk A} {name : String} (h1 : d.fmax = d'.fmax) (h2 : d.parse = d'.parse) (h3 : d.files name = d'.files name) :
    d.column name = d'.column name := by
  unfold FlatDisk.column
  rw [h1, h2, h3]

theorem columnOf_column {d d' : FlatDisk A} {name : String} (h : d.column name = d'.column name) (n : Nat) :
    d.columnOf n name = d'.columnOf n name := by
  unfold FlatDisk.columnOf
  rw [h]

end disks

section honest
variable {D A N : Type} [Dbl D] [FpOrder D] [EqOrder D] [LinearOrder A] [ThrOps A]

/-- Flat files to bag: reading them is defined, there are `n > 0` targets, the file that is listed first has a row, no file has an empty
name, and the target column does not have the name of the weights. -/
structure BagInput (b : Bagging D A N) (n : Nat) : Prop where
  sound : b.disk.Sound
  place : ∀ s, (b.disk.place s).Perm s
  listing : ∀ l name, name ∈ b.mc.listing l ↔ name ∈ l
  rows : 0 < n
  target : (b.disk.columnOf n b.config.targetColumn).isSome
  counted : 0 < bagRows b.first ∧ bagRows b.first < 2 ^ 32
  unnamed : b.disk.column "" = none
  name : b.config.targetColumn ≠ "bagging_weights"

theorem BagInput.flat {b : Bagging D A N} {n : Nat} (h : BagInput b n) (k : Nat) : FlatInput (b.bagDisk k) b.mc b.bagConfig n where
  sound := by
    intro name s hs
    by_cases hn : name = "bagging_weights"
    · subst hn
      rw [bagDisk_weights] at hs
      cases hs
      exact ⟨_, bagWeights_load _ _ _ _ _ _⟩
    · rw [bagDisk_other b k hn] at hs
      exact h.sound name s hs
  place := h.place
  listing := h.listing
  rows := h.rows
  target := by
    have : (b.bagDisk k).column b.config.targetColumn = b.disk.column b.config.targetColumn :=
      column_files rfl rfl (bagDisk_other b k h.name)
    show ((b.bagDisk k).columnOf n b.config.targetColumn).isSome
    rw [columnOf_column this]
    exact h.target
  weight := by
    intro _
    have h1 : (b.bagDisk k).column "bagging_weights" = some (.raw ⟨.ok, (List.range (bagRows b.first)).map (fun i =>
        ((b.bagDisk k).parse (if inBag b.hash b.numBags i k then ['1'] else ['0'])).getD .nan)⟩) := by
      unfold FlatDisk.column
      rw [bagDisk_weights]
      simp only
      rw [bagWeights_load]
    show (b.bagDisk k).columnOf 0 "bagging_weights" = none
    unfold FlatDisk.columnOf
    rw [h1]
    simp only
    rw [if_neg]
    simp only [Column.size, RawCol.size, List.length_map, List.length_range, Outcome.ok.injEq]
    have := h.counted
    rw [u32, Nat.mod_eq_of_lt (by omega)]
    omega
  unnamed := by
    have : (b.bagDisk k).column "" = b.disk.column "" := column_files rfl rfl (bagDisk_other b k (by decide))
    rw [this]
    exact h.unnamed

/-- The same with other flat files, of which `first` is the contents of the one that is listed first. -/
def Bagging.on (b : Bagging D A N) (files : String → Option Text) (first : Text) : Bagging D A N :=
  { b with disk := { b.disk with files := files }, first := first }

/-- The other flat files differ in the target of row `i` only; there are as many rows.  The losses for two classes check all targets: either both
targets of row `i` are of a class or none is, or the targets are made binary. -/
structure OnlyTarget (b : Bagging D A N) (files : String → Option Text) (first : Text) (i : Nat) : Prop where
  rows : bagRows first = bagRows b.first
  others : ∀ name, name ≠ b.config.targetColumn → b.disk.files name = files name
  target : ∃ y y', b.disk.column b.config.targetColumn = some (.raw ⟨.ok, y⟩) ∧
    (b.on files first).disk.column b.config.targetColumn = some (.raw ⟨.ok, y'⟩) ∧ (∀ j : Nat, j ≠ i → y[j]? = y'[j]?) ∧
    (b.config.lossFunc = "mse" ∨ b.config.binarize = true ∨ TwoClass b.mc (y.getD i .nan) = TwoClass b.mc (y'.getD i .nan))

end honest

section exact
variable {K A N : Type} [Field K] [LinearOrder K] [IsStrictOrderedRing K] [LinearOrder A] [ThrOps A]

theorem bagTrain_honest {b : Bagging K A N} {files : String → Option Text} {first : Text} {n i k : Nat} (hb : BagInput b n)
    (hb' : BagInput (b.on files first) n) (hd : OnlyTarget b files first i) (hl : b.config.lossFunc ∈ ["mse", "logloss", "huberized_hinge"])
    (hzero : b.mc.toD ((b.disk.parse ['0']).getD .nan) = 0) (hfeat : b.config.targetColumn ∉ featuresOf b.config)
    (hgroup : b.config.targetColumn ≠ b.config.groupColumn) (hi : i < bagRows b.first) (hk : inBag b.hash b.numBags i k = false)
    {t t' : DataStore A} (ht : HoldsFiles (b.bagDisk k) n b.bagConfig.columns t)
    (ht' : HoldsFiles ((b.on files first).bagDisk k) n b.bagConfig.columns t') :
    cliTrain b.mc t b.bagConfig none b.seed b.numThreads = cliTrain b.mc t' b.bagConfig none b.seed b.numThreads := by
  have hcol : ∀ name, name ≠ b.config.targetColumn → (b.bagDisk k).columnOf n name = ((b.on files first).bagDisk k).columnOf n name := by
    intro name hn
    refine columnOf_column (column_files (d := b.bagDisk k) (d' := (b.on files first).bagDisk k) rfl rfl ?_) n
    by_cases hw : name = "bagging_weights"
    · subst hw
      rw [bagDisk_weights, bagDisk_weights]
      show some (bagWeights b.hash b.numBags (bagRows b.first) k) = some (bagWeights b.hash b.numBags (bagRows first) k)
      rw [hd.rows]
    · rw [bagDisk_other b k hw, bagDisk_other (b.on files first) k hw]
      exact hd.others name hn
  have hget : ∀ name, name ∈ b.bagConfig.columns → name ≠ b.config.targetColumn → t.getColumn name = t'.getColumn name := by
    intro name hname hn
    rw [ht.cols name hname, ht'.cols name hname, hcol name hn]
  have hfeatures : featuresOf b.bagConfig = featuresOf b.config := rfl
  -- the weights
  have hwcol : t.getColumn "bagging_weights" = t'.getColumn "bagging_weights" := hget _ (by simp [Config.columns, Bagging.bagConfig]) hb.name.symm
  have hw : sampleWeightsOrDie b.mc b.bagConfig t = sampleWeightsOrDie b.mc b.bagConfig t' := by
    unfold sampleWeightsOrDie DataStore.getRaw
    show (if ("bagging_weights" : String) = "" then _ else _) = (if ("bagging_weights" : String) = "" then _ else _)
    rw [if_neg (by decide), if_neg (by decide)]
    show (match (match t.getColumn "bagging_weights" with
        | some (.raw c) => some c
        | _ => none) with
      | none => fatal
      | some col => ok (vecFn b.mc col.raw)) = (match (match t'.getColumn "bagging_weights" with
        | some (.raw c) => some c
        | _ => none) with
      | none => fatal
      | some col => ok (vecFn b.mc col.raw))
    rw [hwcol]
  have hw0 : ∀ w, sampleWeightsOrDie b.mc b.bagConfig t = ok w → w i = 0 := by
    intro w h
    unfold sampleWeightsOrDie at h
    rw [if_neg (by simp [Bagging.bagConfig])] at h
    rw [getRaw_eq, ht.cols _ (by simp [Config.columns])] at h
    have h1 : (b.bagDisk k).column "bagging_weights" = some (.raw ⟨.ok, (List.range (bagRows b.first)).map (fun i =>
        ((b.bagDisk k).parse (if inBag b.hash b.numBags i k then ['1'] else ['0'])).getD .nan)⟩) := by
      unfold FlatDisk.column
      rw [bagDisk_weights]
      simp only
      rw [bagWeights_load]
    have h2 : asRaw ((b.bagDisk k).columnOf n "bagging_weights") = none ∨ asRaw ((b.bagDisk k).columnOf n "bagging_weights") =
        some ⟨.ok, (List.range (bagRows b.first)).map (fun i =>
          ((b.bagDisk k).parse (if inBag b.hash b.numBags i k then ['1'] else ['0'])).getD .nan)⟩ := by
      unfold FlatDisk.columnOf
      rw [h1]
      simp only
      split
      · exact Or.inr rfl
      · exact Or.inl rfl
    have h3 : b.bagConfig.weightColumn = "bagging_weights" := rfl
    rw [h3] at h
    rcases h2 with h2 | h2
    · rw [h2] at h; cases h
    · rw [h2] at h
      cases h
      simp only [vecFn, List.getD_eq_getElem?_getD, List.getElem?_map, List.getElem?_range hi, Option.map_some, hk, Option.getD_some]
      exact hzero
  -- the targets
  obtain ⟨y, y', hy, hy', hyy, hclass⟩ := hd.target
  have hyraw : ∀ {t : DataStore A} {d : FlatDisk A} {z : List (Fl A)}, t.getColumn b.config.targetColumn = d.columnOf n b.config.targetColumn →
      (d.columnOf n b.config.targetColumn).isSome → d.column b.config.targetColumn = some (.raw ⟨.ok, z⟩) →
      t.getRaw b.config.targetColumn = some ⟨.ok, z⟩ := by
    intro t d z h1 h3 h2
    rw [getRaw_eq, h1]
    unfold FlatDisk.columnOf at h3 ⊢
    rw [h2] at h3 ⊢
    simp only at h3 ⊢
    split
    · rfl
    · next h => rw [if_neg h] at h3; cases h3
  have htc : b.config.targetColumn ∈ b.bagConfig.columns := by simp [Config.columns, Bagging.bagConfig]
  have hraw : t.getRaw b.config.targetColumn = some ⟨.ok, y⟩ := by
    refine hyraw (ht.cols _ htc) (hb.flat k).target ?_
    rw [← hy]
    exact column_files (d := b.bagDisk k) (d' := b.disk) rfl rfl (bagDisk_other b k hb.name)
  have hraw' : t'.getRaw b.config.targetColumn = some ⟨.ok, y'⟩ := by
    refine hyraw (ht'.cols _ htc) (hb'.flat k).target ?_
    rw [← hy']
    exact column_files (d := (b.on files first).bagDisk k) (d' := (b.on files first).disk) rfl rfl (bagDisk_other (b.on files first) k hb.name)
  by_cases hempty : b.config.targetColumn = ""
  · exact absurd hempty (fun e => by
      have := hb.unnamed
      rw [← e, hy] at this
      cases this)
  let g : List (Fl A) → Nat → K := fun z =>
    if b.config.binarize then fun i => if Dbl.ltb 0 (vecFn b.mc z i) then b.mc.math.one else b.mc.minusOne else vecFn b.mc z
  have hT : targetsOrDie b.mc b.bagConfig t = ok (g y) ∧ targetsOrDie b.mc b.bagConfig t' = ok (g y') := by
    unfold targetsOrDie
    have h1 : b.bagConfig.targetColumn = b.config.targetColumn := rfl
    have h2 : b.bagConfig.binarize = b.config.binarize := rfl
    rw [h1, h2, if_neg hempty, hraw, hraw']
    simp only [g]
    split <;> exact ⟨rfl, rfl⟩
  have hne : ∀ j, j ≠ i → g y j = g y' j := by
    intro j hj
    have : vecFn b.mc y j = vecFn b.mc y' j := by
      simp only [vecFn, List.getD_eq_getElem?_getD, hyy j hj]
    simp only [g]
    split
    · simp only [this]
    · exact this
  have hcl : b.config.lossFunc = "mse" ∨ ∀ j, (Dbl.eqb (g y j) b.mc.math.one || Dbl.eqb (g y j) b.mc.minusOne) =
      (Dbl.eqb (g y' j) b.mc.math.one || Dbl.eqb (g y' j) b.mc.minusOne) := by
    rcases hclass with h | h | h
    · exact Or.inl h
    · right
      intro j
      simp only [g, h, if_true]
      have : ∀ p : Bool, (Dbl.eqb (if p = true then b.mc.math.one else b.mc.minusOne) b.mc.math.one ||
          Dbl.eqb (if p = true then b.mc.math.one else b.mc.minusOne) b.mc.minusOne) = true := by
        intro p
        cases p <;> simp [exact_eqb]
      rw [this, this]
    · right
      intro j
      by_cases hj : j = i
      · subst hj
        by_cases hbin : b.config.binarize = true
        · simp only [g, hbin, if_true]
          have : ∀ p : Bool, (Dbl.eqb (if p = true then b.mc.math.one else b.mc.minusOne) b.mc.math.one ||
              Dbl.eqb (if p = true then b.mc.math.one else b.mc.minusOne) b.mc.minusOne) = true := by
            intro p
            cases p <;> simp [exact_eqb]
          rw [this, this]
        · simp only [g, hbin]
          exact h
      · rw [hne j hj]
  have hloss : ∃ (binary : Bool) (lossFn : K → K → K × K × K), (b.config.lossFunc = "mse" → binary = false) ∧
      ∀ {R : Type} (r : ∀ S : Type, ((w y : Nat → K) → LossFunc S K) → Outcome R),
        withLoss b.mc b.bagConfig b.seed b.numThreads r = some (r _ (fun w y => (mkPoint b.mc b.numThreads w y binary lossFn).toLoss)) := by
    have hlf : b.bagConfig.lossFunc = b.config.lossFunc := rfl
    simp only [List.mem_cons, List.not_mem_nil, or_false] at hl
    rcases hl with h | h | h
    · exact ⟨false, mseLoss b.mc.math, fun _ => rfl, fun r => by simp [withLoss, hlf, h]⟩
    · exact ⟨true, logLoss b.mc.math, fun h' => (by rw [h'] at h; exact absurd h (by decide +kernel)),
        fun r => by simp [withLoss, hlf, h]⟩
    · exact ⟨true, huberizedHinge b.mc.math, fun h' => (by rw [h'] at h; exact absurd h (by decide +kernel)),
        fun r => by simp [withLoss, hlf, h]⟩
  obtain ⟨binary, lossFn, hmse, hloss⟩ := hloss
  unfold cliTrain
  rw [hloss, hloss]
  simp only
  rw [← hw]
  refine bind_congr_ok (fun w hwo => ?_)
  rw [hT.1, hT.2, ok_bind, ok_bind, ht.rows, ht'.rows, ok_bind, ok_bind]
  have h1 := trainGBDT_ignored (env := mkEnv b.mc t n w b.seed b.numThreads) (e := mkPoint b.mc b.numThreads w (g y) binary lossFn)
    (y' := g y') rfl
    (by
      intro j f
      by_cases hj : j = i
      · subst hj
        show GD.scale (w j) _ = GD.scale (w j) _
        rw [hw0 w hwo]
        simp [GD.scale]
      · show GD.scale _ ⟨(lossFn (g y j) f).2.1, (lossFn (g y j) f).2.2⟩ = GD.scale _ ⟨(lossFn (g y' j) f).2.1, (lossFn (g y' j) f).2.2⟩
        rw [hne j hj])
    (by
      intro hbin j _
      rcases hcl with h | h
      · have h' : binary = true := hbin
        rw [hmse h] at h'
        cases h'
      · exact h j)
    (b.mc.listing (featuresOf b.bagConfig)) (b.bagConfig.train b.mc 0) none [] 0
  have h2 := trainGBDT_named (env := mkEnv b.mc t n w b.seed b.numThreads) (cols' := t'.getColumn)
    (features := b.mc.listing (featuresOf b.bagConfig)) (cfg := b.bagConfig.train b.mc 0) (base := none)
    (by
      rintro name ((hn | hn) | rfl)
      · refine hget name ?_ ?_
        · rw [hb.listing] at hn
          simp only [Config.columns, List.mem_cons]
          exact Or.inr (Or.inr (Or.inr hn))
        · rintro rfl
          rw [hb.listing] at hn
          exact hfeat hn
      · simp [forestFeatures] at hn
      · exact ht.unnamed.trans ht'.unnamed.symm)
    (fun _ => hget _ (by simp [Config.columns, Config.train]) hgroup.symm)
    (mkPoint b.mc b.numThreads w (g y') binary lossFn).toLoss [] 0
  have h3 : ({ (mkPoint b.mc b.numThreads w (g y) binary lossFn) with y := g y' } : PointLoss K) =
    mkPoint b.mc b.numThreads w (g y') binary lossFn := rfl
  rw [h1, h3, h2]
  rfl

/-- **C137, models.** The target of a row does not matter to the bag that the row is out of: its score files are the same. -/
theorem C137_files {b : Bagging K A N} {files : String → Option Text} {first : Text} {n i k : Nat} (hb : BagInput b n)
    (hb' : BagInput (b.on files first) n) (hd : OnlyTarget b files first i) (hl : b.config.lossFunc ∈ ["mse", "logloss", "huberized_hinge"])
    (hcodec : b.nc.Exact) (hzero : b.mc.toD ((b.disk.parse ['0']).getD .nan) = 0) (hfeat : b.config.targetColumn ∉ featuresOf b.config)
    (hgroup : b.config.targetColumn ≠ b.config.groupColumn) (hi : i < bagRows b.first) (hk : inBag b.hash b.numBags i k = false) :
    bagFiles b k = bagFiles (b.on files first) k := by
  obtain ⟨t, ht⟩ := C126_store (hb.flat k)
  obtain ⟨t', ht'⟩ := C126_store (hb'.flat k)
  have hT := bagTrain_honest hb hb' hd hl hzero hfeat hgroup hi hk ht ht'
  have hbase : ∀ f, loadBaseOrDie b.nc b.zero none = ok f → ∀ name ∈ forestFeatures (f.getD []), name ∈ featuresOf b.bagConfig := by
    intro f hf name hn
    cases hf
    simp [forestFeatures] at hn
  unfold bagFiles
  rw [C126_train (hb.flat k) ht b.nc b.zero b.weightsFirst (b.trainSched k) b.isort none hbase b.seed b.numThreads]
  have h' := C126_train (hb'.flat k) ht' b.nc b.zero b.weightsFirst (b.trainSched k) b.isort none hbase b.seed b.numThreads
  show _ = (do
    let (model, _) ← cliTrainFFMain ((b.on files first).bagDisk k) b.mc b.nc b.zero b.weightsFirst (b.trainSched k) b.isort b.bagConfig none b.seed
      b.numThreads
    cliTestFFMain (b.on files first).disk b.mc.listing b.nc b.zero (b.testSched k) b.interval (some model) b.numThreads)
  rw [show cliTrainFFMain ((b.on files first).bagDisk k) b.mc b.nc b.zero b.weightsFirst (b.trainSched k) b.isort b.bagConfig none b.seed
      b.numThreads = _ from h', show loadBaseOrDie b.nc b.zero none = ok none from rfl, ok_bind, ok_bind, show cliTrain (b.on files first).mc t' (b.on files first).bagConfig none b.seed b.numThreads = _ from hT.symm]
  refine bind_congr_ok ?_
  rintro ⟨model, fimps⟩ hm
  dsimp only
  obtain ⟨forest, hforest, hm⟩ := bind_eq_ok.mp hm
  split at hm
  · cases hm
  · next j hj =>
    cases hm
    have hon := cliTrain_on hb.listing (c := b.bagConfig) hl hforest
    have hnest := (C99_saving b.nc 64 ⟨forest, ""⟩).mp ⟨_, hj⟩
    have hread := C99_roundtrip hcodec b.zero (limit' := 100) ⟨forest, ""⟩ (fun tr htr => (hon tr htr).1)
      (fun tr htr => (hnest tr htr).trans (by norm_num)) hj
    refine cliTestFFMain_files hb.listing (forest := forest) ?_ ?_ _ _ _
    · simp only [loadForestOrDie, hread]
    · intro name hn
      refine hd.others name ?_
      rintro rfl
      exact hfeat (forestFeatures_on hon _ hn)

/-- **C137.** Out-of-bag scores are honest: the target of a row does not matter to its out-of-bag scores, in exact arithmetic. -/
theorem C137_honest {b : Bagging K A N} {files : String → Option Text} {first : Text} {n i : Nat} (hb : BagInput b n)
    (hb' : BagInput (b.on files first) n) (hd : OnlyTarget b files first i) (hl : b.config.lossFunc ∈ ["mse", "logloss", "huberized_hinge"])
    (hcodec : b.nc.Exact) (hzero : b.mc.toD ((b.disk.parse ['0']).getD .nan) = 0) (hfeat : b.config.targetColumn ∉ featuresOf b.config)
    (hgroup : b.config.targetColumn ≠ b.config.groupColumn) {res res' : List (Int × List K × List K)}
    (h : runBagging b = ok (some res)) (h' : runBagging (b.on files first) = ok (some res')) {t : Int} {ins outs ins' outs' : List K}
    (ht : (t, ins, outs) ∈ res) (ht' : (t, ins', outs') ∈ res') : outs[i]? = outs'[i]? := by
  obtain ⟨hm, _, ho, hs⟩ := C136_scores h ht
  obtain ⟨_, _, ho', hs'⟩ := C136_scores h' ht'
  have hrows : bagRows (b.on files first).first = bagRows b.first := hd.rows
  rw [hrows] at ho' hs'
  by_cases hi : i < bagRows b.first
  · obtain ⟨x, out, h1, h2, h3, h4, _⟩ := hs i hi
    obtain ⟨x', out', h1', h2', h3', h4', _⟩ := hs' i hi
    have hout : out' = out := by
      obtain ⟨k, _, hk⟩ := C136_once b.hash hm i
      rw [hk out ⟨h2, h3⟩, hk out' ⟨h2', h3'⟩]
    subst hout
    have hf := C137_files hb hb' hd hl hcodec hzero hfeat hgroup hi h3
    obtain ⟨fs, sc, g1, g2, g3⟩ := h1 _ h2
    obtain ⟨fs', sc', g1', g2', g3'⟩ := h1' _ h2'
    rw [← hf, g1] at g1'
    cases g1'
    rw [g2] at g2'
    cases g2'
    rw [g3] at g3'
    have hx : x out' = x' out' := Option.some.inj g3'
    rw [h4, h4', hx]
    rfl
  · rw [List.getElem?_eq_none (by omega), List.getElem?_eq_none (by omega)]

end exact

/-! ## C138 -/

section succeeds
variable {D A N : Type} [Dbl D] [FpOrder D] [EqOrder D] [LinearOrder A] [ThrOps A]

/-- **C138, rows.** If the file that is listed first does not have as many rows that are not blank as there are targets, then the script stops with
an error: the file of weights that it makes has another number of rows. -/
theorem C138_refuted_rows {b : Bagging D A N} {n : Nat} (hb : BagInput b n) (hl : b.config.lossFunc ∈ ["mse", "logloss", "huberized_hinge"])
    (hm : 0 < b.numBags) (hne : bagRows b.first ≠ n) : runBagging b = fatal := by
  have h0 : bagFiles b 0 = fatal := by
    obtain ⟨t, ht⟩ := C126_store (hb.flat 0)
    have hbase : ∀ f, loadBaseOrDie b.nc b.zero none = ok f → ∀ name ∈ forestFeatures (f.getD []), name ∈ featuresOf b.bagConfig := by
      intro f hf name hn
      cases hf
      simp [forestFeatures] at hn
    unfold bagFiles
    rw [C126_train (hb.flat 0) ht b.nc b.zero b.weightsFirst (b.trainSched 0) b.isort none hbase b.seed b.numThreads]
    have : cliTrain b.mc t b.bagConfig none b.seed b.numThreads = fatal := by
      obtain ⟨e, _, hw⟩ := withLoss_point b.mc (c := b.bagConfig) b.seed b.numThreads hl
      unfold cliTrain
      rw [hw]
      simp only
      have : sampleWeightsOrDie b.mc b.bagConfig t = fatal := by
        unfold sampleWeightsOrDie
        have h3 : b.bagConfig.weightColumn = "bagging_weights" := rfl
        rw [if_neg (by simp [Bagging.bagConfig]), getRaw_eq, ht.cols _ (by simp [Config.columns]), h3]
        have h1 : (b.bagDisk 0).column "bagging_weights" = some (.raw ⟨.ok, (List.range (bagRows b.first)).map (fun i =>
            ((b.bagDisk 0).parse (if inBag b.hash b.numBags i 0 then ['1'] else ['0'])).getD .nan)⟩) := by
          unfold FlatDisk.column
          rw [bagDisk_weights]
          simp only
          rw [bagWeights_load]
        unfold FlatDisk.columnOf
        rw [h1]
        simp only
        rw [if_neg]
        · rfl
        · simp only [Column.size, RawCol.size, List.length_map, List.length_range, Outcome.ok.injEq]
          have := hb.counted
          rw [u32, Nat.mod_eq_of_lt (by omega)]
          exact hne
      rw [this]
      rfl
    rw [show loadBaseOrDie b.nc b.zero none = ok none from rfl, ok_bind, this]
    rfl
  unfold runBagging
  obtain ⟨m, hm'⟩ : ∃ m, b.numBags = m + 1 := ⟨b.numBags - 1, by omega⟩
  rw [hm', List.range_succ_eq_map, List.mapM_cons, h0]
  rfl

/-- **C138, one bag.** With one bag there are no scores: no row is in it, and the script divides by zero. -/
theorem C138_refuted_one {b : Bagging D A N} (hone : b.numBags = 1) (hrows : 0 < bagRows b.first) {res : List (Int × List D × List D)}
    (h : runBagging b = ok (some res)) : res = [] := by
  rw [List.eq_nil_iff_forall_not_mem]
  rintro ⟨t, ins, outs⟩ ht
  obtain ⟨_, hi, _, hs⟩ := C136_scores h ht
  obtain ⟨x, out, _, h2, _, _, h5⟩ := hs 0 hrows
  have hout : out = 0 := by omega
  rw [hone, hout] at h5
  have : ins[0]? = none := h5.trans (by simp [meanOf])
  rw [List.getElem?_eq_none_iff] at this
  omega

theorem mapM_some_of {α β : Type} {f : α → Option β} : ∀ {l : List α}, (∀ a ∈ l, ∃ b, f a = some b) → ∃ l', l.mapM f = some l'
  | [], _ => ⟨[], by rw [List.mapM_nil]; rfl⟩
  | a :: l, h => by
    obtain ⟨b, hb⟩ := h a List.mem_cons_self
    obtain ⟨l', hl'⟩ := mapM_some_of (fun a ha => h a (List.mem_cons_of_mem _ ha))
    exact ⟨b :: l', by rw [List.mapM_cons, hb, hl']; rfl⟩

theorem mapM_ok_of {α β : Type} {f : α → Outcome β} : ∀ {l : List α}, (∀ a ∈ l, ∃ b, f a = ok b) → ∃ l', l.mapM f = ok l'
  | [], _ => ⟨[], by rw [List.mapM_nil]; rfl⟩
  | a :: l, h => by
    obtain ⟨b, hb⟩ := h a List.mem_cons_self
    obtain ⟨l', hl'⟩ := mapM_ok_of (fun a ha => h a (List.mem_cons_of_mem _ ha))
    exact ⟨b :: l', by rw [List.mapM_cons, hb, hl']; rfl⟩

/-- All bags have the same test points. -/
theorem bagFiles_points {b : Bagging D A N} {n : Nat} (hb : BagInput b n) (hl : b.config.lossFunc ∈ ["mse", "logloss", "huberized_hinge"])
    (hcodec : b.nc.Exact) {k k' : Nat} {files files' : List (Int × List D)} (h : bagFiles b k = ok files) (h' : bagFiles b k' = ok files') :
    files.map Prod.fst = files'.map Prod.fst := by
  have key : ∀ {k : Nat} {files : List (Int × List D)}, bagFiles b k = ok files → ∃ j forest, loadForestOrDie b.nc b.zero (some j) = ok forest ∧
      forest.length = b.config.numTrees.toNat + 1 ∧
      cliTestFFMain b.disk b.mc.listing b.nc b.zero (b.testSched k) b.interval (some j) b.numThreads = ok files := by
    intro k files h
    obtain ⟨t, ht⟩ := C126_store (hb.flat k)
    have hbase : ∀ f, loadBaseOrDie b.nc b.zero none = ok f → ∀ name ∈ forestFeatures (f.getD []), name ∈ featuresOf b.bagConfig := by
      intro f hf name hn
      cases hf
      simp [forestFeatures] at hn
    unfold bagFiles at h
    rw [C126_train (hb.flat k) ht b.nc b.zero b.weightsFirst (b.trainSched k) b.isort none hbase b.seed b.numThreads,
      show loadBaseOrDie b.nc b.zero none = ok none from rfl, ok_bind] at h
    obtain ⟨⟨model, fimps⟩, hm, h⟩ := bind_eq_ok.mp h
    dsimp only at h
    obtain ⟨forest, hforest, hm⟩ := bind_eq_ok.mp hm
    split at hm
    · cases hm
    · next j hj =>
      cases hm
      have hon := cliTrain_on hb.listing (c := b.bagConfig) hl hforest
      have hnest := (C99_saving b.nc 64 ⟨forest, ""⟩).mp ⟨_, hj⟩
      have hread := C99_roundtrip hcodec b.zero (limit' := 100) ⟨forest, ""⟩ (fun tr htr => (hon tr htr).1)
        (fun tr htr => (hnest tr htr).trans (by norm_num)) hj
      exact ⟨model, forest, by simp only [loadForestOrDie, hread], cliTrain_count (c := b.bagConfig) hl hforest, h⟩
  obtain ⟨j, f, h1, h2, h3⟩ := key h
  obtain ⟨j', f', h1', h2', h3'⟩ := key h'
  exact cliTestFFMain_keys h1 h1' (by rw [h2, h2']) h3 h3'

/-- **C138 in part.** With two bags or more, the script succeeds if the program succeeds for every bag, and all score files have as many scores as
the file that is listed first has rows.  Missing: models of bags without a split, whose score files are empty (C129); files with blank rows
(`C138_refuted_rows`); one bag (`C138_refuted_one`). -/
theorem C138_partial {b : Bagging D A N} {n : Nat} (hb : BagInput b n) (hl : b.config.lossFunc ∈ ["mse", "logloss", "huberized_hinge"])
    (hcodec : b.nc.Exact) (hm : 2 ≤ b.numBags)
    (hfiles : ∀ k < b.numBags, ∃ files, bagFiles b k = ok files ∧ ∀ f ∈ files, bagRows b.first ≤ f.2.length) :
    ∃ res, runBagging b = ok (some res) := by
  obtain ⟨bags, hbags⟩ := mapM_ok_of (l := List.range b.numBags) (f := bagFiles b) (fun k hk => by
    obtain ⟨files, h, _⟩ := hfiles k (List.mem_range.mp hk)
    exact ⟨files, h⟩)
  obtain ⟨hlen, hget⟩ := mapM_ok_get hbags
  rw [List.length_range] at hlen
  have hbag : ∀ files ∈ bags, ∃ k, bagFiles b k = ok files ∧ ∀ f ∈ files, bagRows b.first ≤ f.2.length := by
    intro files hf
    obtain ⟨k, hk⟩ := List.getElem?_of_mem hf
    have hkl : k < b.numBags := by
      rw [← hlen]
      exact (List.getElem?_eq_some_iff.mp hk).1
    obtain ⟨fs, h1, h2⟩ := hget k k (by rw [List.getElem?_range hkl])
    rw [hk] at h2
    cases h2
    obtain ⟨fs', h3, h4⟩ := hfiles k hkl
    rw [h1] at h3
    cases h3
    exact ⟨k, h1, h4⟩
  unfold runBagging
  rw [hbags, ok_bind]
  cases bags with
  | nil => rw [List.length_nil] at hlen; omega
  | cons first rest =>
    suffices h : ∃ res, (first.map Prod.fst).mapM (fun t => (bagPoint b (first :: rest) t).map (fun r => (t, r))) = some res by
      obtain ⟨res, hres⟩ := h
      exact ⟨res, by simp only [hres]; rfl⟩
    refine mapM_some_of (fun t ht => ?_)
    obtain ⟨k0, hk0, _⟩ := hbag first List.mem_cons_self
    -- the score files of the test point
    have hlook : ∀ files ∈ first :: rest, ∃ scores, (files.lookup t).map (List.map b.shown) = some scores ∧
        bagRows b.first ≤ scores.length := by
      intro files hf
      obtain ⟨k, h1, h2⟩ := hbag files hf
      have hk : t ∈ files.map Prod.fst := by
        rw [bagFiles_points hb hl hcodec h1 hk0]
        exact ht
      obtain ⟨scores, hs⟩ : ∃ scores, files.lookup t = some scores := by
        cases hlk : files.lookup t with
        | some s => exact ⟨s, rfl⟩
        | none =>
          rw [List.lookup_eq_none_iff] at hlk
          obtain ⟨p, hp, rfl⟩ := List.mem_map.mp hk
          exact absurd (hlk p hp) (by simp)
      refine ⟨scores.map b.shown, by rw [hs]; rfl, ?_⟩
      rw [List.length_map]
      obtain ⟨l1, l2, he, _⟩ := List.lookup_eq_some_iff.mp hs
      exact h2 (t, scores) (by rw [he]; simp)
    obtain ⟨scores, hscores⟩ := mapM_some_of (l := first :: rest) (f := fun files => (files.lookup t).map (List.map b.shown)) (fun files hf => by
      obtain ⟨s, h, _⟩ := hlook files hf
      exact ⟨s, h⟩)
    obtain ⟨hsl, hsg⟩ := mapM_some_get hscores
    have hrow : ∀ k < b.numBags, ∃ row, scores[k]? = some row ∧ bagRows b.first ≤ row.length := by
      intro k hk
      obtain ⟨files, hf⟩ : ∃ files, (first :: rest)[k]? = some files := ⟨_, List.getElem?_eq_getElem (by omega)⟩
      obtain ⟨row, h1, h2⟩ := hsg k files hf
      obtain ⟨s, h3, h4⟩ := hlook files (List.mem_of_getElem? hf)
      rw [h1] at h3
      cases h3
      exact ⟨row, h2, h4⟩
    have hscore : ∀ (keep : Nat → Nat → Bool), (∀ i, ∃ k < b.numBags, keep i k = true) → ∀ i < bagRows b.first,
        ∃ v, bagScore b.mc.ofNat keep scores i = some v := by
      intro keep hkeep i hi
      obtain ⟨l, hll⟩ := mapM_some_of (l := (List.range scores.length).filter (keep i)) (f := fun k => scores[k]? >>= fun row => row[i]?) (by
        intro k hk
        have hk' := List.mem_range.mp (List.mem_filter.mp hk).1
        obtain ⟨row, h1, h2⟩ := hrow k (by omega)
        exact ⟨row[i], by rw [h1]; exact List.getElem?_eq_getElem (by omega)⟩)
      have hne : l ≠ [] := by
        obtain ⟨k, hk, hk'⟩ := hkeep i
        have hmem : k ∈ (List.range scores.length).filter (keep i) := by
          rw [List.mem_filter, List.mem_range]
          exact ⟨by omega, hk'⟩
        have := List.length_pos_of_mem hmem
        rw [← (mapM_some_get hll).1] at this
        exact List.ne_nil_of_length_pos this
      refine ⟨l.foldl (· + ·) 0 / b.mc.ofNat l.length, ?_⟩
      · unfold bagScore
        have : (((List.range scores.length).filter (keep i)).mapM (fun k => do
            let row ← scores[k]?
            row[i]?)) = some l := hll
        rw [this]
        simp only [Option.bind_eq_bind, Option.bind_some, meanOf, if_neg hne]
    obtain ⟨ins, hins⟩ := mapM_some_of (l := List.range (bagRows b.first)) (f := bagScore b.mc.ofNat (inBag b.hash b.numBags) scores) (by
      intro i hi
      refine hscore _ (fun i => ?_) i (List.mem_range.mp hi)
      obtain ⟨out, ⟨_, _⟩, hu⟩ := C136_once b.hash (show 0 < b.numBags by omega) i
      by_contra hno
      push Not at hno
      have h0 := hu 0 ⟨by omega, by simpa using hno 0 (by omega)⟩
      have h1 := hu 1 ⟨by omega, by simpa using hno 1 (by omega)⟩
      omega)
    obtain ⟨outs, houts⟩ := mapM_some_of (l := List.range (bagRows b.first))
      (f := bagScore b.mc.ofNat (fun i k => !inBag b.hash b.numBags i k) scores) (by
      intro i hi
      refine hscore _ (fun i => ?_) i (List.mem_range.mp hi)
      obtain ⟨out, ⟨h1, h2⟩, _⟩ := C136_once b.hash (show 0 < b.numBags by omega) i
      exact ⟨out, h1, by simp [h2]⟩)
    refine ⟨(t, ins, outs), ?_⟩
    unfold bagPoint
    simp only [hscores, hins, houts, Option.bind_eq_bind, Option.bind_some, Option.pure_def, Option.map_some]

/-- C138 in full: with two bags or more the script succeeds if the program succeeds for every bag. -/
def C138_full : Prop :=
  ∀ (b : Bagging ℚ ℚ (ℚ ⊕ Nat)) (n : Nat), BagInput b n → b.nc.Exact → 2 ≤ b.numBags → (∀ k < b.numBags, ∃ files, bagFiles b k = ok files) →
    ∃ res, runBagging b = ok (some res)

/-! ## C139 -/

/-- The weights that the configuration names do not matter to bagging. -/
theorem C139_ignored (b : Bagging D A N) (column : String) :
    runBagging { b with config := { b.config with weightColumn := column } } = runBagging b := rfl

/-- C139 in full: rows to which the configuration gives weight zero do not matter to bagging (compare C104): changing the target of such a
row does not change a score. -/
def C139_full : Prop :=
  ∀ (b : Bagging ℚ ℚ (ℚ ⊕ Nat)) (files : String → Option Text) (first : Text) (n i : Nat) (w : List (Fl ℚ)),
    BagInput b n → BagInput (b.on files first) n → OnlyTarget b files first i → b.nc.Exact → b.config.targetColumn ∉ featuresOf b.config →
    b.config.targetColumn ≠ b.config.groupColumn → b.config.weightColumn ≠ "" →
    b.disk.columnOf n b.config.weightColumn = some (.raw ⟨.ok, w⟩) → w[i]? = some (.num 0) → b.mc.toD (.num 0) = 0 →
    runBagging (b.on files first) = runBagging b

end succeeds

/-! ### Example -/

/-- Flat files of five rows, with the target `y` for the first row, and weights of which the first is zero. -/
def bagFlat (y : Char) : FlatDisk ℚ where
  fmax := 1000
  parse := ratParse
  place := List.reverse
  files := fun name =>
    if name = "size" then some "# dtype=bucketized_floats\n5\n?\n7\n9\n9\n".toList
    else if name = "color" then some "# dtype=strings\nb\na\nc\nb\nc\n".toList
    else if name = "clicked" then some ("# dtype=raw_floats\n".toList ++ y :: "\n0\n1\n0\n0\n".toList)
    else if name = "w" then some "# dtype=raw_floats\n0\n1\n1\n1\n1\n".toList
    else none

/-- Two bags; the first two rows are out of the first. -/
def twoBags (y : Char) : Bagging ℚ ℚ (ℚ ⊕ Nat) where
  disk := bagFlat y
  first := "# dtype=strings\nb\na\nc\nb\nc\n".toList
  hash := fun s => if s = "0" ∨ s = "1" then 0 else 1
  numBags := 2
  mc := cliMachine
  nc := plainCodec
  zero := 0
  weightsFirst := true
  trainSched := fun _ => [1, 0, 0, 1]
  testSched := fun _ => [0, 1]
  isort := id
  config := { flatCfg with weightColumn := "w" }
  interval := 1
  seed := 1
  numThreads := 2
  shown := id

theorem bagFlat_sound {y : Char} (hy : y ∈ ['1', '9']) : (bagFlat y).Sound := by
  intro name s h
  simp only [bagFlat] at h ⊢
  have key : ∀ y ∈ ['1', '9'], ∀ s ∈ ["# dtype=bucketized_floats\n5\n?\n7\n9\n9\n".toList, "# dtype=strings\nb\na\nc\nb\nc\n".toList,
      "# dtype=raw_floats\n".toList ++ y :: "\n0\n1\n0\n0\n".toList, "# dtype=raw_floats\n0\n1\n1\n1\n1\n".toList],
      (match loadFile (1000 : ℚ) ratParse s with
        | .ok _ => true
        | _ => false) = true := by decide +kernel
  have hs : s ∈ ["# dtype=bucketized_floats\n5\n?\n7\n9\n9\n".toList, "# dtype=strings\nb\na\nc\nb\nc\n".toList,
      "# dtype=raw_floats\n".toList ++ y :: "\n0\n1\n0\n0\n".toList, "# dtype=raw_floats\n0\n1\n1\n1\n1\n".toList] := by
    split at h <;> [skip; (split at h <;> [skip; (split at h <;> [skip; split at h])])]
    all_goals cases h
    all_goals simp only [List.mem_cons, true_or, or_true]
  have := key y hy s hs
  split at this
  · next c hc => exact ⟨c, hc⟩
  · cases this

/-- The hypotheses of C137 and C138 hold of these files. -/
theorem twoBags_input {y : Char} (hy : y ∈ ['1', '9']) : BagInput (twoBags y) 5 where
  sound := bagFlat_sound hy
  place := fun s => List.reverse_perm s
  listing := fun l name => (cliMachine_perm l).mem_iff
  rows := by decide
  target := by
    have key : ∀ y ∈ ['1', '9'], ((bagFlat y).columnOf 5 "clicked").isSome = true := by decide +kernel
    exact key y hy
  counted := by
    have : bagRows "# dtype=strings\nb\na\nc\nb\nc\n".toList = 5 := by decide +kernel
    show 0 < bagRows "# dtype=strings\nb\na\nc\nb\nc\n".toList ∧ bagRows "# dtype=strings\nb\na\nc\nb\nc\n".toList < 2 ^ 32
    rw [this]
    decide
  unnamed := by
    have key : ∀ y ∈ ['1', '9'], ((bagFlat y).column "").isNone = true := by decide +kernel
    exact Option.isNone_iff_eq_none.mp (key y hy)
  name := by
    show "clicked" ≠ "bagging_weights"
    decide

theorem twoBags_on : twoBags '9' = (twoBags '1').on (bagFlat '9').files (twoBags '1').first := rfl

theorem twoBags_target : OnlyTarget (twoBags '1') (bagFlat '9').files (twoBags '1').first 0 where
  rows := rfl
  others := by
    intro name hn
    have hn' : name ≠ "clicked" := hn
    simp only [twoBags, bagFlat, if_neg hn']
  target := by
    refine ⟨[.num 1, .num 0, .num 1, .num 0, .num 0], [.num 9, .num 0, .num 1, .num 0, .num 0], ?_, ?_, ?_, Or.inl (by decide +kernel)⟩
    · have : (match (bagFlat '1').column "clicked" with
        | some (.raw ⟨.ok, y⟩) => decide (y = [.num 1, .num 0, .num 1, .num 0, .num 0])
        | _ => false) = true := by decide +kernel
      split at this
      · next y h => rw [of_decide_eq_true this] at h; exact h
      · cases this
    · have : (match (bagFlat '9').column "clicked" with
        | some (.raw ⟨.ok, y⟩) => decide (y = [.num 9, .num 0, .num 1, .num 0, .num 0])
        | _ => false) = true := by decide +kernel
      split at this
      · next y h => rw [of_decide_eq_true this] at h; exact h
      · cases this
    · rintro (_ | j) hj
      · exact absurd rfl hj
      · rfl

/-- The script succeeds; the target of the first row matters to its in-bag scores and to the scores of other rows, but not to its out-of-bag
scores. -/
example : (match runBagging (twoBags '1'), runBagging (twoBags '9') with
    | .ok (some r), .ok (some r') => decide (r[2]? = some (3, [23 / 32, 9 / 32, 23 / 36, 13 / 81, 13 / 81], [23 / 36, 23 / 36, 23 / 32, 23 / 32, 23 / 32]) ∧
        r.map (fun e => e.2.2[0]?) = r'.map (fun e => e.2.2[0]?) ∧ r.map (fun e => e.2.1[0]?) ≠ r'.map (fun e => e.2.1[0]?) ∧
        r.map (fun e => e.2.2[2]?) ≠ r'.map (fun e => e.2.2[2]?))
    | _, _ => false) = true := by decide +kernel

/-- The other hypotheses of C137 hold as well. -/
example : (twoBags '1').config.lossFunc ∈ ["mse", "logloss", "huberized_hinge"] ∧ (twoBags '1').nc.Exact ∧
    (twoBags '1').mc.toD (((twoBags '1').disk.parse ['0']).getD .nan) = 0 ∧ (twoBags '1').config.targetColumn ∉ featuresOf (twoBags '1').config ∧
    (twoBags '1').config.targetColumn ≠ (twoBags '1').config.groupColumn ∧ inBag (twoBags '1').hash 2 0 0 = false :=
  ⟨by decide, plainCodec_exact, by decide +kernel, by decide +kernel, by decide, by decide +kernel⟩

/-- The hypothesis of C138 about score files holds. -/
example : (List.range 2).all (fun k => match bagFiles (twoBags '1') k with
    | .ok files => files.all (fun f => decide (bagRows (twoBags '1').first ≤ f.2.length))
    | _ => false) = true := by decide +kernel

/-! ### Witnesses -/

/-- Bags in which the first has only rows with equal targets. -/
def dullBags : Bagging ℚ ℚ (ℚ ⊕ Nat) := { twoBags '1' with hash := fun s => (s.toList.headD '0').toNat }

/-- **C138 refuted.** The first bag has a model without a split; its score files are empty, and the script raises an exception. -/
theorem C138_refuted : ¬ C138_full := by
  intro h
  have hin := twoBags_input (y := '1') (by decide)
  obtain ⟨res, hres⟩ := h dullBags 5
    ⟨hin.sound, hin.place, hin.listing, hin.rows, hin.target, hin.counted, hin.unnamed, hin.name⟩ plainCodec_exact (by decide) (by
      intro k hk
      have key : ∀ k < 2, (match bagFiles dullBags k with
        | .ok _ => true
        | _ => false) = true := by decide +kernel
      have := key k hk
      split at this
      · next files hf => exact ⟨files, hf⟩
      · cases this)
  have key : (match runBagging dullBags with
    | .ok none => true
    | _ => false) = true := by decide +kernel
  rw [hres] at key
  cases key

/-- Bags for which a file with two blank rows is listed first: the hypotheses of `C138_refuted_rows` hold. -/
def blankBags : Bagging ℚ ℚ (ℚ ⊕ Nat) := { twoBags '1' with first := "# dtype=strings\nb\n\nc\n \nc\n".toList }

example : BagInput blankBags 5 ∧ blankBags.config.lossFunc = "mse" ∧ 0 < blankBags.numBags ∧ bagRows blankBags.first = 3 := by
  have hin := twoBags_input (y := '1') (by decide)
  exact ⟨⟨hin.sound, hin.place, hin.listing, hin.rows, hin.target, by decide +kernel, hin.unnamed, hin.name⟩, by decide, by decide, by decide +kernel⟩

/-- One bag: the hypotheses of `C138_refuted_one` hold but for the success. -/
example : (match runBagging { twoBags '1' with numBags := 1 } with
    | .ok none => true
    | _ => false) = true := by decide +kernel

/-- **C139 refuted.** The first row has weight zero, but its target matters. -/
theorem C139_refuted : ¬ C139_full := by
  intro h
  have hcol : (bagFlat '1').columnOf 5 "w" = some (.raw ⟨.ok, [.num 0, .num 1, .num 1, .num 1, .num 1]⟩) := by
    have : (match (bagFlat '1').columnOf 5 "w" with
      | some (.raw ⟨.ok, y⟩) => decide (y = [.num 0, .num 1, .num 1, .num 1, .num 1])
      | _ => false) = true := by decide +kernel
    split at this
    · next y h => rw [of_decide_eq_true this] at h; exact h
    · cases this
  have hr := h (twoBags '1') (bagFlat '9').files (twoBags '1').first 5 0 _ (twoBags_input (by decide)) (twoBags_on ▸ twoBags_input (by decide))
    twoBags_target plainCodec_exact (by decide +kernel) (by decide) (by decide) hcol rfl (by decide +kernel)
  rw [← twoBags_on] at hr
  have key : (match runBagging (twoBags '9'), runBagging (twoBags '1') with
    | .ok (some r), .ok (some r') => decide (r ≠ r')
    | _, _ => false) = true := by decide +kernel
  rw [hr] at key
  cases ho : runBagging (twoBags '1') with
  | ok o =>
    rw [ho] at key
    cases o with
    | none => cases key
    | some r => exact of_decide_eq_true key rfl
  | ub => rw [ho] at key; cases key
  | fatal => rw [ho] at key; cases key

end Gbdt
