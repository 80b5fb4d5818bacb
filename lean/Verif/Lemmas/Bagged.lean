import Verif.Model.Bagged
import Verif.Lemmas.FlatTrain
import Verif.Lemmas.NamedColumns
import Verif.Lemmas.Tree
import Verif.Props.ZeroWeight
import Verif.Props.Converter
import Verif.Props.Json
import Verif.Props.Train

/-!
# Lemmas for bagging
-/

set_option autoImplicit false
set_option linter.unusedSectionVars false

namespace Gbdt

open Outcome

/-! ## What a test reads -/

section files
variable {A : Type} [LinearOrder A]

theorem stepFF_names {fmax : A} {parse : Text → Option (Fl A)} {place : FFStore A → FFStore A} {files : String → Option Text}
    {st st' : FFState A} {k : Nat} (h : stepFF fmax parse place files st k = ok st') : st'.calls.map Call.name = st.calls.map Call.name := by
  unfold stepFF at h
  split at h
  · cases h; rfl
  · next c hc =>
    obtain ⟨r, hr, h⟩ := bind_eq_ok.mp h
    cases h
    have hcalls : r.1.calls = st.calls := by
      unfold stepCall at hr
      split at hr
      · cases hr; rfl
      · split at hr
        · cases hr; rfl
        · obtain ⟨col, _, hr⟩ := bind_eq_ok.mp hr
          split at hr <;> (cases hr; rfl)
      · obtain ⟨q, hq, hr⟩ := bind_eq_ok.mp hr
        split at hr
        · cases hr; rfl
        · cases hr
          unfold insertColumn at hq
          obtain ⟨rows, _, hq⟩ := bind_eq_ok.mp hq
          obtain ⟨size, _, hq⟩ := bind_eq_ok.mp hq
          split at hq
          · cases hq
          · cases hq; rfl
      · cases hr; rfl
      · cases hr; rfl
    simp only
    rw [hcalls, List.map_set]
    refine List.ext_getElem? (fun j => ?_)
    rw [List.getElem?_set]
    split
    · next e =>
      subst e
      simp only [List.length_map, List.getElem?_map, hc, Option.map_some]
      split
      · rfl
      · next hl =>
        rw [List.getElem?_eq_none (Nat.le_of_not_lt hl)] at hc
        cases hc
    · rfl

theorem stepFF_files {fmax : A} {parse : Text → Option (Fl A)} {place : FFStore A → FFStore A} {files files' : String → Option Text}
    {st : FFState A} (h : ∀ name ∈ st.calls.map Call.name, files name = files' name) (k : Nat) :
    stepFF fmax parse place files st k = stepFF fmax parse place files' st k := by
  unfold stepFF
  cases hc : st.calls[k]? with
  | none => rfl
  | some c =>
    simp only
    have : files c.name = files' c.name := h c.name (List.mem_map_of_mem (List.mem_of_getElem? hc))
    have : stepCall fmax parse place files st c = stepCall fmax parse place files' st c := by
      unfold stepCall
      rw [this]
    rw [this]

theorem runFF_files {fmax : A} {parse : Text → Option (Fl A)} {place : FFStore A → FFStore A} {files files' : String → Option Text} :
    ∀ (sched : List Nat) {st : FFState A}, (∀ name ∈ st.calls.map Call.name, files name = files' name) →
      runFF fmax parse place files sched st = runFF fmax parse place files' sched st
  | [], _, _ => rfl
  | k :: sched, st, h => by
    unfold runFF
    rw [List.foldlM_cons, List.foldlM_cons, stepFF_files h k]
    refine bind_congr_ok (fun st' hst => ?_)
    exact runFF_files sched (by rw [stepFF_names hst, ← stepFF_names (st' := st') (st := st) (k := k)
      (fmax := fmax) (parse := parse) (place := place) (files := files') hst, stepFF_names hst]; exact h)

theorem startFF_names (store : FFStore A) (next : Nat) (names : List String) : (startFF store next names).calls.map Call.name = names := by
  simp [startFF, Function.comp_def]

theorem ffGet_files {d : FlatDisk A} {files' : String → Option Text} {name : String} (h : d.files name = files' name) (m : FFMem A) :
    ffGet d m name = ffGet { d with files := files' } m name := by
  unfold ffGet
  rw [runFF_files (files := d.files) (files' := files') _ (by rw [startFF_names]; simpa using h)]

theorem ffGets_files {d : FlatDisk A} {files' : String → Option Text} : ∀ {names : List String}, (∀ name ∈ names, d.files name = files' name) →
    ∀ m : FFMem A, ffGets d m names = ffGets { d with files := files' } m names
  | [], _, _ => rfl
  | name :: names, h, m => by
    rw [ffGets, ffGets, ffGet_files (h name List.mem_cons_self)]
    refine bind_congr_ok ?_
    rintro ⟨m1, c⟩ _
    cases c with
    | none => rfl
    | some c =>
      simp only
      rw [ffGets_files (fun n hn => h n (List.mem_cons_of_mem _ hn))]

variable {D N : Type} [Dbl D] [FpOrder D] [EqOrder D] [ThrOps A]

/-- Testing a model reads the files of its features only. -/
theorem cliTestFFMain_files {d : FlatDisk A} {files' : String → Option Text} {listing : List String → List String}
    (hlist : ∀ l name, name ∈ listing l ↔ name ∈ l) {nc : NumCodec D A N} {zero : A} {model : Option (Json N)} {forest : List (Tree D A)}
    (hmodel : loadForestOrDie nc zero model = ok forest) (h : ∀ name ∈ forestFeatures forest, d.files name = files' name)
    (sched : List Nat) (interval nt : Int) :
    cliTestFFMain d listing nc zero sched interval model nt =
      cliTestFFMain { d with files := files' } listing nc zero sched interval model nt := by
  have hn : ∀ name ∈ listing (forestFeatures forest).dedup, d.files name = files' name := by
    intro name hname
    rw [hlist, List.mem_dedup] at hname
    exact h name hname
  have : ffLoadFeatures d sched {} (listing (forestFeatures forest).dedup) =
      ffLoadFeatures { d with files := files' } sched {} (listing (forestFeatures forest).dedup) := by
    unfold ffLoadFeatures ffPool
    rw [runFF_files (files := d.files) (files' := files') _ (by rw [startFF_names]; exact hn)]
    refine bind_congr_ok (fun m _ => ?_)
    exact ffGets_files hn m
  unfold cliTestFFMain
  rw [hmodel, ok_bind, ok_bind, this]

end files

/-! ## The trees that are trained -/

section trees
variable {D A : Type} [Dbl D] [LinearOrder A] [ThrOps A]

theorem fitTree_set {env : FitEnv D A} {cfg : FitConfig D} {p q : Nat} {t : Tree D A} (h : fitTree env cfg p = ok (t, q)) : t ≠ .absent := by
  have step : ∀ (s s' : FitState D A) k e f, fitStep env cfg s k e f = ok s' → s.tree ≠ .absent → s'.tree ≠ .absent := by
    intro s s' k e f h hs
    unfold fitStep at h
    cases ht : s.tree.at? e.path with
    | none => simp only [ht] at h; cases h
    | some t =>
    simp only [ht, ok_bind] at h
    obtain ⟨⟨ls, rs⟩, _, h⟩ := bind_eq_ok.mp h
    obtain ⟨lt, _, h⟩ := bind_eq_ok.mp h
    obtain ⟨rt, _, h⟩ := bind_eq_ok.mp h
    obtain ⟨⟨lb, p1⟩, hb1, h⟩ := bind_eq_ok.mp h
    obtain ⟨⟨rb, p2⟩, hb2, h⟩ := bind_eq_ok.mp h
    cases h
    exact graft_ne_absent hs _ _ _
  have loop : ∀ (n : Nat) (s s' : FitState D A), fitLoop env cfg n s = ok s' → s.tree ≠ .absent → s'.tree ≠ .absent := by
    intro n
    induction n with
    | zero => intro s s' h hs; cases h; exact hs
    | succ n ih =>
      intro s s' h hs
      rw [fitLoop] at h
      split at h
      · obtain ⟨e, _, h⟩ := bind_eq_ok.mp h
        cases hf : e.feature with
        | none => simp only [hf] at h; cases h; exact hs
        | some f =>
          simp only [hf] at h
          obtain ⟨s1, hs1, h⟩ := bind_eq_ok.mp h
          exact ih s1 s' h (step _ _ _ _ _ hs1 hs)
      · cases h; exact hs
  unfold fitTree at h
  obtain ⟨s, hs, h⟩ := bind_eq_ok.mp h
  obtain ⟨s1, hs1, h⟩ := bind_eq_ok.mp h
  cases h
  refine loop _ _ _ hs1 ?_
  unfold fitStart at hs
  obtain ⟨⟨samples, p1⟩, _, hs⟩ := bind_eq_ok.mp hs
  obtain ⟨total, _, hs⟩ := bind_eq_ok.mp hs
  obtain ⟨⟨best, p2⟩, hb, hs⟩ := bind_eq_ok.mp hs
  cases hs
  intro e
  cases e

theorem treeFeatures_clear : ∀ (t : Tree D A), ∀ name ∈ treeFeatures (clearInternal t), name ∈ treeFeatures t
  | .absent, name, h => h
  | .node score sp l r, name, h => by
    simp only [clearInternal, treeFeatures, List.mem_append] at h ⊢
    rcases h with (h | h) | h
    · left; left
      cases sp with
      | none => cases hl : l.isSet <;> simp [hl] at h
      | some s => cases hl : l.isSet <;> simp [hl, clearIndex] at h ⊢; exact h
    · exact Or.inl (Or.inr (treeFeatures_clear l name h))
    · exact Or.inr (treeFeatures_clear r name h)

/-- The trees of a forest are set and split on features of the configuration. -/
def TreesOn (names : List String) (forest : List (Tree D A)) : Prop := ∀ t ∈ forest, t ≠ .absent ∧ SplitsOn (· ∈ names) t

theorem trainLoop_on {S : Type} {env : TrainEnv D A} {loss : LossFunc S D} {features : List (String × Column A)} {cfg : TrainConfig D} {k : Nat} :
    ∀ {n : Nat} {s s' : TrainState S D A} {stopped : Bool}, trainLoop env loss features cfg k n s = ok (stopped, s') →
      TreesOn (features.map Prod.fst) s.forest → TreesOn (features.map Prod.fst) s'.forest
  | 0, s, s', _, h, hs => by cases h; exact hs
  | n + 1, s, s', _, h, hs => by
    rw [trainLoop] at h
    obtain ⟨⟨ls, constant, grads⟩, _, h⟩ := bind_eq_ok.mp h
    dsimp only at h
    split at h
    · cases h; exact hs
    · obtain ⟨⟨t, pos⟩, ht, h⟩ := bind_eq_ok.mp h
      dsimp only at h
      obtain ⟨⟨slices, f⟩, _, h⟩ := bind_eq_ok.mp h
      refine trainLoop_on h ?_
      have h1 : TreesOn (features.map Prod.fst) (s.forest ++ [applyShrinkage env.rnd32 cfg.shrinkage t]) := by
        intro u hu
        rcases List.mem_append.mp hu with hu | hu
        · exact hs u hu
        · rw [List.mem_singleton] at hu
          subst hu
          constructor
          · have := fitTree_set ht
            cases t with
            | absent => exact absurd rfl this
            | node => intro e; cases e
          · intro name hn
            rw [shrink_features] at hn
            exact fitTree_splits ht name hn
      intro u hu
      obtain ⟨j, hj⟩ := List.getElem?_of_mem hu
      rw [List.getElem?_modify] at hj
      obtain ⟨v, hv, rfl⟩ := Option.map_eq_some_iff.mp hj
      obtain ⟨g1, g2⟩ := h1 v (List.mem_of_getElem? hv)
      split
      · cases v with
        | absent => exact absurd rfl g1
        | node => exact ⟨(fun e => by cases e), g2⟩
      · exact ⟨g1, g2⟩

theorem trainGBDT_on {S : Type} {env : TrainEnv D A} {loss : LossFunc S D} {names : List String} {cfg : TrainConfig D} {p : Nat}
    {r : TrainResult D A} (h : trainGBDT env loss names cfg none [] p = ok r) : TreesOn names r.forest := by
  have hnil : TreesOn names ([] : List (Tree D A)) := fun t ht => by cases ht
  unfold trainGBDT at h
  split at h
  · cases h; exact hnil
  · split at h
    · cases h; exact hnil
    · next features hf =>
      obtain ⟨g, _, h⟩ := bind_eq_ok.mp h
      obtain ⟨init, _, h⟩ := bind_eq_ok.mp h
      split at h
      · cases h; exact hnil
      · obtain ⟨slices, _, h⟩ := bind_eq_ok.mp h
        obtain ⟨⟨f1, s1, v1⟩, hi, h⟩ := bind_eq_ok.mp h
        dsimp only at h
        obtain ⟨⟨stopped, s⟩, hl, h⟩ := bind_eq_ok.mp h
        have hf1 : f1 = [.node 0 none .absent .absent] := by
          simp only [Option.getD_none, initWithBase, List.nil_append] at hi
          cases hi
          rfl
        have hs : TreesOn names s.forest := by
          rw [← loadFeatures_names hf]
          refine trainLoop_on hl ?_
          simp only [hf1]
          intro t ht
          rw [List.mem_singleton] at ht
          subst ht
          exact ⟨(fun e => by cases e), fun name hn => by simp [treeFeatures] at hn⟩
        dsimp only at h
        split at h
        · cases h; exact hs
        · cases h
          intro t ht
          obtain ⟨u, hu, rfl⟩ := List.mem_map.mp ht
          exact ⟨clearInternal_set (hs u hu).1, fun name hn => (hs u hu).2 name (treeFeatures_clear u name hn)⟩

theorem cliTrain_on [FpOrder D] [EqOrder D] {mc : Machine D A} (hlist : ∀ l name, name ∈ mc.listing l ↔ name ∈ l) {t : DataStore A} {c : Config D}
    (hl : c.lossFunc ∈ ["mse", "logloss", "huberized_hinge"]) {seed nt : Int} {forest : List (Tree D A)}
    (h : cliTrain mc t c none seed nt = ok forest) : TreesOn (featuresOf c) forest := by
  obtain ⟨e, _, hw⟩ := withLoss_point mc seed nt hl
  unfold cliTrain at h
  rw [hw] at h
  simp only at h
  obtain ⟨w, _, h⟩ := bind_eq_ok.mp h
  obtain ⟨y, _, h⟩ := bind_eq_ok.mp h
  obtain ⟨n, _, h⟩ := bind_eq_ok.mp h
  obtain ⟨r, hr, h⟩ := bind_eq_ok.mp h
  split at h
  · cases h
    have := trainGBDT_on hr
    exact fun t ht => ⟨(this t ht).1, fun name hn => (hlist _ _).mp ((this t ht).2 name hn)⟩
  · cases h

theorem forestFeatures_on {names : List String} {forest : List (Tree D A)} (h : TreesOn names forest) :
    ∀ name ∈ forestFeatures forest, name ∈ names := by
  intro name hn
  unfold forestFeatures at hn
  obtain ⟨t, ht, hn⟩ := List.mem_flatMap.mp hn
  exact (h t ht).2 name hn

end trees

/-! ## Test points -/

section points
variable {D A N : Type} [Dbl D] [LinearOrder A] [ThrOps A]

/-- The names of the score files depend on the number of trees only. -/
theorem evaluateLoop_keys {cols cols' : String → Option (Column A)} : ∀ {forest forest' : List (Tree D A)} {i : Nat} {points : List Int}
    {slices slices' : List (List Nat)} {scores scores' : List D} {files files' : List (Int × List D)}, forest.length = forest'.length →
    evaluateLoop cols forest i points slices scores = ok files → evaluateLoop cols' forest' i points slices' scores' = ok files' →
    files.map Prod.fst = files'.map Prod.fst
  | [], [], _, _, _, _, _, _, _, _, _, h, h' => by cases h; cases h'; rfl
  | [], _ :: _, _, _, _, _, _, _, _, _, hl, _, _ => by simp at hl
  | _ :: _, [], _, _, _, _, _, _, _, _, hl, _, _ => by simp at hl
  | _ :: _, _ :: _, _, [], _, _, _, _, _, _, _, h, h' => by cases h; cases h'; rfl
  | t :: ts, t' :: ts', i, p :: ps, _, _, _, _, _, _, hl, h, h' => by
    rw [evaluateLoop] at h h'
    obtain ⟨⟨ss, sc⟩, _, h⟩ := bind_eq_ok.mp h
    obtain ⟨⟨ss', sc'⟩, _, h'⟩ := bind_eq_ok.mp h'
    dsimp only at h h'
    obtain ⟨rest, h2, h⟩ := bind_eq_ok.mp h
    obtain ⟨rest', h2', h'⟩ := bind_eq_ok.mp h'
    have := evaluateLoop_keys (by simpa using hl) h2 h2'
    cases h
    cases h'
    split
    · simp [this]
    · exact this

theorem cliTestFFMain_keys {d d' : FlatDisk A} {listing listing' : List String → List String} {nc : NumCodec D A N} {zero : A}
    {sched sched' : List Nat} {interval nt : Int} {model model' : Option (Json N)} {forest forest' : List (Tree D A)}
    {files files' : List (Int × List D)} (hm : loadForestOrDie nc zero model = ok forest) (hm' : loadForestOrDie nc zero model' = ok forest')
    (hlen : forest.length = forest'.length) (h : cliTestFFMain d listing nc zero sched interval model nt = ok files)
    (h' : cliTestFFMain d' listing' nc zero sched' interval model' nt = ok files') : files.map Prod.fst = files'.map Prod.fst := by
  have key : ∀ {d : FlatDisk A} {listing : List String → List String} {sched : List Nat} {model : Option (Json N)} {forest : List (Tree D A)}
      {files : List (Int × List D)}, loadForestOrDie nc zero model = ok forest →
      cliTestFFMain d listing nc zero sched interval model nt = ok files → ∃ cols slices scores,
        evaluateLoop cols forest 0 (getTestPoints interval forest.length) slices scores = ok files := by
    intro d listing sched model forest files hm h
    unfold cliTestFFMain at h
    rw [hm, ok_bind] at h
    obtain ⟨⟨m, loaded⟩, _, h⟩ := bind_eq_ok.mp h
    dsimp only at h
    split at h
    · cases h
    · obtain ⟨n, _, h⟩ := bind_eq_ok.mp h
      obtain ⟨⟨e, scores⟩, h1, h⟩ := bind_eq_ok.mp h
      dsimp only at h
      split at h
      · next he =>
        cases h
        unfold evaluateCheckpoints at h1
        split at h1
        · next e' hf =>
          cases h1
          rw [loadFeatures_error hf] at he
          cases he
        · obtain ⟨slices, _, h1⟩ := bind_eq_ok.mp h1
          obtain ⟨fs, h2, h1⟩ := bind_eq_ok.mp h1
          cases h1
          exact ⟨_, _, _, h2⟩
      · cases h
  obtain ⟨c, s, v, k1⟩ := key hm h
  obtain ⟨c', s', v', k2⟩ := key hm' h'
  rw [← hlen] at k2
  exact evaluateLoop_keys hlen k1 k2

theorem trainLoop_count {S : Type} {env : TrainEnv D A} {loss : LossFunc S D} {features : List (String × Column A)} {cfg : TrainConfig D} {k : Nat} :
    ∀ {n : Nat} {s s' : TrainState S D A}, trainLoop env loss features cfg k n s = ok (false, s') →
      s'.forest.length = s.forest.length + n
  | 0, s, s', h => by cases h; rfl
  | n + 1, s, s', h => by
    rw [trainLoop] at h
    obtain ⟨⟨ls, constant, grads⟩, _, h⟩ := bind_eq_ok.mp h
    dsimp only at h
    split at h
    · cases h
    · obtain ⟨⟨t, pos⟩, ht, h⟩ := bind_eq_ok.mp h
      dsimp only at h
      obtain ⟨⟨slices, f⟩, _, h⟩ := bind_eq_ok.mp h
      have := trainLoop_count h
      simp only [List.length_modify, List.length_append, List.length_singleton] at this
      omega

theorem trainGBDT_count {S : Type} {env : TrainEnv D A} {loss : LossFunc S D} {names : List String} {cfg : TrainConfig D} {p : Nat}
    {r : TrainResult D A} (hinit : ∀ n g, loss.init n g ≠ ok (.error .ok)) (h : trainGBDT env loss names cfg none [] p = ok r) (hok : r.code = .ok) :
    r.forest.length = cfg.numTrees.toNat + 1 := by
  unfold trainGBDT at h
  split at h
  · next hc => cases h; exact absurd hok hc
  · split at h
    · next e hf =>
      cases h
      rw [loadFeatures_error hf] at hok
      cases hok
    · obtain ⟨g, _, h⟩ := bind_eq_ok.mp h
      obtain ⟨init, hi0, h⟩ := bind_eq_ok.mp h
      split at h
      · cases h
        subst hok
        exact absurd hi0 (hinit _ _)
      · obtain ⟨slices, _, h⟩ := bind_eq_ok.mp h
        obtain ⟨⟨f1, s1, v1⟩, hi, h⟩ := bind_eq_ok.mp h
        dsimp only at h
        obtain ⟨⟨stopped, s⟩, hl, h⟩ := bind_eq_ok.mp h
        have hf1 : f1 = [.node 0 none .absent .absent] := by
          simp only [Option.getD_none, initWithBase, List.nil_append] at hi
          cases hi
          rfl
        dsimp only at h
        cases stopped with
        | true =>
          rw [if_pos rfl] at h
          cases h
          cases hok
        | false =>
          rw [if_neg (by simp)] at h
          cases h
          have := trainLoop_count hl
          simp only [hf1, List.length_singleton] at this
          simp only [List.length_map]
          omega

/-- The number of trees of a model. -/
theorem cliTrain_count [FpOrder D] [EqOrder D] {mc : Machine D A} {t : DataStore A} {c : Config D}
    (hl : c.lossFunc ∈ ["mse", "logloss", "huberized_hinge"]) {seed nt : Int} {forest : List (Tree D A)}
    (h : cliTrain mc t c none seed nt = ok forest) : forest.length = c.numTrees.toNat + 1 := by
  obtain ⟨e, _, hw⟩ := withLoss_point mc seed nt hl
  unfold cliTrain at h
  rw [hw] at h
  simp only at h
  obtain ⟨w, _, h⟩ := bind_eq_ok.mp h
  obtain ⟨y, _, h⟩ := bind_eq_ok.mp h
  obtain ⟨n, _, h⟩ := bind_eq_ok.mp h
  obtain ⟨r, hr, h⟩ := bind_eq_ok.mp h
  split at h
  · next hok =>
    cases h
    refine (trainGBDT_count ?_ hr hok).trans rfl
    intro n g hi
    simp only [PointLoss.toLoss, pointInit] at hi
    split at hi
    · cases hi
    · obtain ⟨s, _, hi⟩ := bind_eq_ok.mp hi
      cases hi
  · cases h

end points

end Gbdt
