import Verif.Proofs.Int32Group
import Verif.Proofs.Int32Data
import Verif.Props.Leader

/-!
# C62: arithmetic on `int`
-/

namespace Onex
open DataT Spec

variable {α : Type} [DataT α] {ρ : Rounding}

/-- C62: a ratio that is not negative gives band sizes that are not negative, whatever the rounding; this is what the theorems
below ask of the ratio. -/
theorem C62_bands (r : ℝ) (h : 0 ≤ r) : BandNonneg (F.fin r : F ρ) := by
  intro l b hl hb
  unfold calculateWarpingBandSize at hb
  have e : mul (ofInt l) (F.fin r : F ρ) = F.fin (ρ.f ((l : ℝ) * r)) := rfl
  rw [e] at hb
  have hx : 0 ≤ ⌊ρ.f ((l : ℝ) * r)⌋ := Int.floor_nonneg.mpr (ρ.nonneg (mul_nonneg (by exact_mod_cast hl) h))
  have hf : floorInt (F.fin (ρ.f ((l : ℝ) * r)) : F ρ) =
      if inIntRange ⌊ρ.f ((l : ℝ) * r)⌋ = true then some ⌊ρ.f ((l : ℝ) * r)⌋ else none := rfl
  rw [hf] at hb
  split at hb
  · next x hx' =>
    split at hx'
    · simp only [Option.some.injEq] at hx'
      simp only [Res.ok.injEq] at hb
      omega
    · simp at hx'
  · simp at hb

/-- C62: comparing two series of at most `intLimit` values overflows nowhere, with either named distance or with the cascade of
bounds that searches use. -/
theorem C62_distances (junk : α) {ratio : α} (hb : BandNonneg ratio) (a b : Series α) (x : α) (ha : len a.vals ≤ intLimit)
    (hl : len b.vals ≤ intLimit) :
    (∀ dn : DistName, dn.fn32 ratio a b x = dn.fn ratio a b x) ∧
    cascadeDistance32 junk ratio a b x = cascadeDistance junk ratio a b x :=
  ⟨fun dn => (fn32_fits hb dn a b x ha hl).eq, (cascade32_fits junk hb a b x ha hl).eq⟩

/-- C62: loading a file overflows nowhere, if its lines times the values on any of them are at most `intLimit`; nor does anything
done with the dataset loaded. -/
theorem C62_load (stod : Text → Stod α) (file : Option Text) (filePath : String) (maxNumRow startCol : Int) (seps : Text)
    (ds : Dataset α) (s0 : 0 ≤ startCol) (s1 : startCol ≤ intLimit)
    (hf : ∀ text, file = some text → len (getLines text) ≤ intLimit ∧
      ∀ line ∈ getLines text, len (getLines text) * len (tokenize seps line) ≤ intLimit) :
    ds.loadData32 stod file filePath maxNumRow startCol seps = ds.loadData stod file filePath maxNumRow startCol seps ∧
    (∀ ds', ds.loadData stod file filePath maxNumRow startCol seps = (.ok (), ds') → 0 ≤ ds'.itemLength → ds'.Small) :=
  loadData32_eq s0 s1 hf

/-- C62: saving, normalising and averaging overflow nowhere, and leave a dataset of at most `intLimit` values. -/
theorem C62_dataset (shw : α → Text) (junk : α) (ds : Dataset α) (hd : ds.Small) :
    (∀ sep, ds.saveText32 shw sep = ds.saveText shw sep) ∧
    (ds.normalize32 = ds.normalize ∧ ∀ mm ds', ds.normalize = (.ok mm, ds') → ds'.Small) ∧
    ∀ n, ds.PAA32 junk n = ds.PAA junk n ∧ ∀ ds', ds.PAA junk n = (.ok (), ds') → ds'.Small :=
  ⟨fun sep => saveText32_eq hd sep, normalize32_eq hd, fun n => PAA32_eq hd junk n⟩

theorem groupAll_split {env : Env α} {name : String} {th : α} {s s' : GSet α} {n : Int}
    (h : s.groupAllLengths env name th = (.ok n, s')) :
    s.ds.isLoaded = true ∧ ∃ gs, (GlobalSpace.fresh : GlobalSpace α).group env.ratio s.ds name th env.doLog = (.ok n, gs) ∧
      s' = { s.reset with groups := some gs, threshold := some th } := by
  unfold GSet.groupAllLengths at h
  split at h
  · simp at h
  · next hl =>
    refine ⟨by simpa using hl, ?_⟩
    have e : s.reset.ds = s.ds := rfl
    simp only [e] at h
    generalize (GlobalSpace.fresh : GlobalSpace α).group env.ratio s.ds name th env.doLog = p at h
    obtain ⟨r, gs⟩ := p
    simp only at h
    split at h
    · simp only [Prod.mk.injEq, Res.ok.injEq] at h
      exact ⟨gs, by rw [h.1], h.2.symm⟩
    · next hne =>
      simp only [Prod.mk.injEq] at h
      exact absurd h.1 (hne n)

/-- C62: grouping that completes in unbounded arithmetic does exactly the same on `int`, unless it finds more than `INT_MAX`
groups, or reports progress on a length that has 21474840 or more sub-series; in those two cases it overflows. -/
theorem C62_group_partial (env : Env α) (hb : BandNonneg env.ratio) (name : String) (th : α) (s s' : GSet α) (hd : s.ds.Small)
    (n : Int) (h : s.groupAllLengths env name th = (.ok n, s')) :
    (n ≤ 2147483647 ∧ (∀ l, 2 ≤ l → l ≤ s.ds.itemLength → env.doLog l = true →
        (s.ds.itemLength - l + 1) * s.ds.itemCount < 21474840) →
      s.groupAllLengths32 env name th = (.ok n, s') ∧ s'.Small) ∧
    (¬ (n ≤ 2147483647 ∧ ∀ l, 2 ≤ l → l ≤ s.ds.itemLength → env.doLog l = true →
        (s.ds.itemLength - l + 1) * s.ds.itemCount < 21474840) →
      (s.groupAllLengths32 env name th).1 = .ub "signed overflow") := by
  obtain ⟨hl, gs, hg, rfl⟩ := groupAll_split h
  have e : s.reset.ds = s.ds := rfl
  constructor
  · rintro ⟨h1, h2⟩
    obtain ⟨g1, g2⟩ := group32_eq hb hd name th (fun l a b c => by have := h2 l a b c; omega) hg
    refine ⟨?_, hd, fun gs' hgs' => ?_⟩
    · unfold GSet.groupAllLengths32
      rw [if_neg (by simp [hl])]
      simp only [e, g2 h1]
    · simp only [Option.some.injEq] at hgs'
      subst hgs'
      exact g1
  · intro hn
    have hbad : 2147483647 < n ∨ ∃ l, 2 ≤ l ∧ l ≤ s.ds.itemLength ∧ env.doLog l = true ∧
        21474839 < (s.ds.itemLength - l + 1) * s.ds.itemCount := by
      by_contra hc
      refine hn ⟨by by_contra hlt; exact hc (Or.inl (by omega)), fun l a b c => ?_⟩
      by_contra hlt
      exact hc (Or.inr ⟨l, a, b, c, by omega⟩)
    have g := group32_ub hb hd name th hg hbad
    unfold GSet.groupAllLengths32
    rw [if_neg (by simp [hl])]
    simp only [e]
    generalize (GlobalSpace.fresh : GlobalSpace α).group32 env.ratio s.ds name th env.doLog = p at g
    obtain ⟨r, gs'⟩ := p
    simp only at g
    subst g
    rfl

/-- C62: searching overflows nowhere, whatever it does, and leaves a dataset and groups for which the next search does not
overflow either. -/
theorem C62_match (env : Env α) (hb : BandNonneg env.ratio) (query : Series α) (hq : len query.vals ≤ intLimit) (s : GSet α)
    (hs : s.Small) :
    s.getBestMatch32 env query = s.getBestMatch env query ∧ (s.getBestMatch env query).2.Small := by
  unfold GSet.getBestMatch32 GSet.getBestMatch
  cases hg : s.groups with
  | none => exact ⟨rfl, hs⟩
  | some gs =>
    have hf := globalBestMatch32_fits env.junk hb hs.ds (hs.groups gs hg) hq
    simp only [hf.eq]
    refine ⟨rfl, ?_⟩
    cases hr : gs.getBestMatch env.junk env.ratio s.ds query with
    | ok y =>
      refine ⟨hs.ds, fun gs' hgs' => ?_⟩
      simp only [Option.some.injEq] at hgs'
      subst hgs'
      exact hf.post hr
    | throw e => exact hs
    | ub w => exact hs

/-! ## Where it does overflow -/

/-- The table of `c` rows of `L` zeros. -/
def zeros (c L : ℕ) : List (List ℝ) := List.replicate c (List.replicate L 0)

theorem zeros_length (c L : ℕ) : (zeros c L).length = c := List.length_replicate

/-- The set holding the table of `c` rows of `L` zeros. -/
noncomputable def zeroSet (c L : ℕ) : GSet (F ρ) :=
  ⟨⟨some ((zeros c L).map fins).flatten, 0, L, c, "", false⟩, none, none⟩

theorem zeroSet_holds (c L : ℕ) : (zeroSet c L : GSet (F ρ)).ds.Holds L ((zeros c L).map fins) := by
  refine ⟨?_, rfl, ?_, [], by simp [zeroSet]⟩
  · intro r hr
    simp only [zeros, List.map_replicate, List.mem_replicate] at hr
    rw [hr.2]
    simp [fins]
  · simp [zeroSet, zeros]

theorem zeroSet_small {c L : ℕ} (hc : (c : Int) ≤ intLimit) (hL : (L : Int) ≤ intLimit) (h : (c : Int) * L ≤ intLimit) :
    (zeroSet c L : GSet (F ρ)).ds.Small := by
  refine ⟨Int.natCast_nonneg _, Int.natCast_nonneg _, hc, hL, h, ?_⟩
  intro b hb
  simp only [zeroSet, Option.some.injEq] at hb
  subst hb
  simpa [len, zeros, fins] using h

/-- C62: ten thousand series of 2149 values, twenty-one and a half million values in all, overflow the progress report if the clock
asks for one at length 2: `counter * 100` exceeds `INT_MAX`. -/
theorem C62_progress_counterexample (env : Env (F Rounding.exact)) (hratio : env.ratio = F.fin 1) (hlog : env.doLog 2 = true)
    (th : F Rounding.exact) :
    (zeroSet 10000 2149 : GSet (F Rounding.exact)).ds.Small ∧
    (∃ n s', (zeroSet 10000 2149).groupAllLengths env "euclidean" th = (.ok n, s')) ∧
    ((zeroSet 10000 2149).groupAllLengths32 env "euclidean" th).1 = .ub "signed overflow" := by
  have hd : (zeroSet 10000 2149 : GSet (F Rounding.exact)).ds.Small := zeroSet_small (by decide) (by decide) (by decide)
  obtain ⟨n, s', h⟩ := C36_completes_partial env 1 hratio (zeroSet 10000 2149) 2149 _ (zeroSet_holds 10000 2149)
    (ratioOk_of (by norm_num) (by norm_num)) "euclidean" (Or.inl rfl) th (Or.inl (by rw [zeros_length]; norm_num))
  refine ⟨hd, ⟨n, s', h⟩, ?_⟩
  refine (C62_group_partial env (by rw [hratio]; exact C62_bands 1 (by norm_num)) "euclidean" th _ s' hd n h).2 ?_
  rintro ⟨_, h2⟩
  have := h2 2 (by norm_num) (by simp [zeroSet]) hlog
  simp [zeroSet] at this

theorem leader_apart {β : Type} {D : β → β → ℝ} {h : ℝ} (hD : ∀ a b, h < D a b) {cs : List β} {G : List (List β)}
    (hG : Leader D h cs G) : G.length = cs.length := by
  induction hG with
  | nil => rfl
  | found _ _ ih => simp [ih]
  | join _ _ _ a _ near _ _ => exact absurd near (not_le.mpr (hD _ _))

theorem sum_lengths (c : Int) (L : Int) : ∀ m : ℕ, 2 ≤ m →
    2 * ((List.range m).map fun l : ℕ => if l < 2 then (0 : Int) else c * (L + 1 - l)).sum = c * ((m - 2) * (2 * L + 1 - m)) := by
  intro m hm
  induction m, hm using Nat.le_induction with
  | base => simp [List.range_succ]
  | succ m hm ih =>
    rw [List.range_succ, List.map_append, List.sum_append, mul_add, ih]
    simp only [List.map_cons, List.map_nil, List.sum_cons, List.sum_nil, add_zero, if_neg (show ¬ m < 2 by omega)]
    push_cast
    ring

/-- Grouping with a negative threshold makes a group of every sub-series. -/
theorem negative_threshold (env : Env (F Rounding.exact)) (ratio : ℝ) (hratio : env.ratio = F.fin ratio)
    (s s' : GSet (F Rounding.exact)) (L : Nat) (R : List (List ℝ)) (hR : s.ds.Holds L (R.map fins))
    (h0 : 0 ≤ ratio) (hL : (L : ℝ) * ratio < 2147483648) (h1 : 1 ≤ L) (st : ℝ) (hst : st < 0) (n : Int)
    (h : s.groupAllLengths env "euclidean" (F.fin st) = (.ok n, s')) : 2 * n = R.length * (L * (L - 1)) := by
  obtain ⟨_, _, gs, dn, hg, _, _, hby⟩ := groupAllLengths_ok h
  have hlen := hby.size
  rw [hR.itemLength] at hlen
  have hlen' : gs.locals.length = L + 1 := by unfold len at hlen; omega
  have e : gs.locals.map entryGroups =
      (List.range (L + 1)).map fun l : ℕ => if l < 2 then (0 : Int) else R.length * ((L : Int) + 1 - l) := by
    refine List.ext_getElem (by simp [hlen']) fun l k1 k2 => ?_
    have k3 : l < gs.locals.length := by simpa using k1
    simp only [List.getElem_map, List.getElem_range]
    split
    · next hlt =>
      have := hby.short l (by omega) (by omega) (by rw [hR.itemLength]; omega)
      rw [vget_nat k3, Res.ok.injEq] at this
      rw [this]
      rfl
    · next hlt =>
      obtain ⟨ls, G, ⟨gs', hg', hls⟩, hG, hc, _⟩ := C59_leader env ratio hratio s s' L R hR h0 hL .euclidean st n h l
        (by omega) (by omega)
      rw [hg, Option.some.injEq] at hg'
      subst hg'
      rw [vget_nat k3, Res.ok.injEq] at hls
      rw [hls]
      have := leader_apart (fun a b => lt_of_lt_of_le (by linarith) (Real.sqrt_nonneg _)) hG
      rw [hc] at this
      show len ls.groups = _
      unfold len
      rw [this]
      simp only [subOrder, List.length_flatMap, List.length_map, List.length_range, List.map_const', List.sum_replicate, smul_eq_mul]
      push_cast
      rw [Int.toNat_of_nonneg (by omega)]
      ring
  rw [hby.total, e, sum_lengths _ _ _ (by omega)]
  push_cast
  ring

/-- C62: one series of 65537 values, grouped with a negative threshold: every sub-series founds a group, and there are more of
them than `INT_MAX`. -/
theorem C62_count_counterexample (env : Env (F Rounding.exact)) (hratio : env.ratio = F.fin 1) (hlog : ∀ l, env.doLog l = false) :
    (zeroSet 1 65537 : GSet (F Rounding.exact)).ds.Small ∧
    (∃ s', (zeroSet 1 65537).groupAllLengths env "euclidean" (F.fin (-1)) = (.ok 2147516416, s')) ∧
    ((zeroSet 1 65537).groupAllLengths32 env "euclidean" (F.fin (-1))).1 = .ub "signed overflow" := by
  have hd : (zeroSet 1 65537 : GSet (F Rounding.exact)).ds.Small := zeroSet_small (by decide) (by decide) (by decide)
  obtain ⟨n, s', h⟩ := C36_completes_partial env 1 hratio (zeroSet 1 65537) 65537 _ (zeroSet_holds 1 65537)
    (ratioOk_of (by norm_num) (by norm_num)) "euclidean" (Or.inl rfl) (F.fin (-1)) (Or.inr hlog)
  have hn := negative_threshold env 1 hratio _ s' 65537 _ (zeroSet_holds 1 65537) (by norm_num) (by norm_num) (by norm_num) (-1)
    (by norm_num) n h
  have hz : ((zeros 1 65537).length : Int) = 1 := by rw [zeros_length]; rfl
  rw [hz] at hn
  push_cast at hn
  obtain rfl : n = 2147516416 := by omega
  refine ⟨hd, ⟨s', h⟩, ?_⟩
  refine (C62_group_partial env (by rw [hratio]; exact C62_bands 1 (by norm_num)) "euclidean" _ _ s' hd _ h).2 ?_
  rintro ⟨h1, _⟩
  norm_num at h1

/-- C62: some limit on lengths is needed: an envelope of 2^30 or more values with the widest band overflows at once, in the
capacity of its deques, for every such series. -/
theorem C62_envelope_counterexample (junk : α) (vals : List α) (h : 1073741824 ≤ len vals) (band : Int) (hb : 1073741823 ≤ band) :
    generateKeoghLU32 junk vals band = .ub "signed overflow" := by
  unfold generateKeoghLU32 lowerUpperLemire32
  by_cases h1 : len vals ≤ 2147483648
  · rw [ck_eq (by constructor <;> omega)]
    simp only [Res.bind_ok]
    have hm : 1073741823 ≤ min band (len vals - 1) := by omega
    by_cases h2 : 2 * min band (len vals - 1) ≤ 2147483647
    · rw [ck_eq (by constructor <;> omega), ck_ub (by omega)]
      rfl
    · rw [ck_ub (by omega)]
      rfl
  · rw [ck_ub (by omega)]
    rfl

/-! ## Cases -/

/-- A case for grouping and searching: five series of two values, with reports at every length. Grouping does the same on `int`,
and so does every search for a series of up to `intLimit` values, after it and after each other. -/
example (io : NumIO (F Rounding.exact)) (stod : Text → Stod (F Rounding.exact)) (query : Series (F Rounding.exact))
    (hq : len query.vals ≤ intLimit) :
    let env : Env (F Rounding.exact) := ⟨F.fin 1, F.nan, io, stod, fun _ => true⟩
    ∃ n s', (zeroSet 5 2).groupAllLengths32 env "euclidean" (F.fin (-1)) = (.ok n, s') ∧ n = 5 ∧ s'.Small ∧
      s'.getBestMatch32 env query = s'.getBestMatch env query ∧
      (s'.getBestMatch env query).2.getBestMatch32 env query = (s'.getBestMatch env query).2.getBestMatch env query := by
  intro env
  have hb : BandNonneg env.ratio := C62_bands 1 (by norm_num)
  have hd : (zeroSet 5 2 : GSet (F Rounding.exact)).ds.Small := zeroSet_small (by decide) (by decide) (by decide)
  obtain ⟨n, s', h⟩ := C36_completes_partial env 1 rfl (zeroSet 5 2) 2 _ (zeroSet_holds 5 2)
    (ratioOk_of (by norm_num) (by norm_num)) "euclidean" (Or.inl rfl) (F.fin (-1)) (Or.inl (by rw [zeros_length]))
  have hn := negative_threshold env 1 rfl _ s' 2 _ (zeroSet_holds 5 2) (by norm_num) (by norm_num) (by norm_num) (-1)
    (by norm_num) n h
  rw [zeros_length] at hn
  push_cast at hn
  obtain rfl : n = 5 := by omega
  obtain ⟨h1, h2⟩ := (C62_group_partial env hb "euclidean" _ _ s' hd _ h).1 ⟨by norm_num, fun l l2 lL _ => by
    have e : (zeroSet 5 2 : GSet (F Rounding.exact)).ds.itemLength = 2 := rfl
    have e' : (zeroSet 5 2 : GSet (F Rounding.exact)).ds.itemCount = 5 := rfl
    rw [e] at lL ⊢
    rw [e']
    omega⟩
  have m := C62_match env hb query hq s' h2
  exact ⟨5, s', h1, rfl, h2, m.1, (C62_match env hb query hq _ m.2).1⟩

/-- A case for loading: two lines of two values. -/
example (stod : Text → Stod α) (ds : Dataset α) :
    ds.loadData32 stod (some "1 2\n3 4\n".toList) "f" 10 0 " ".toList =
      ds.loadData stod (some "1 2\n3 4\n".toList) "f" 10 0 " ".toList :=
  (C62_load stod _ "f" 10 0 _ ds (by decide) (by decide) (by
    intro text ht
    simp only [Option.some.injEq] at ht
    subst ht
    decide)).1

/-- A case for the dataset functions and the distances. -/
example (shw : F ρ → Text) (junk : F ρ) :
    (zeroSet 3 4 : GSet (F ρ)).ds.saveText32 shw ' ' = (zeroSet 3 4 : GSet (F ρ)).ds.saveText shw ' ' ∧
    (∀ a b : Series (F ρ), len a.vals = 3 → len b.vals = 4 →
      cascadeDistance32 junk (F.fin 1) a b F.pinf = cascadeDistance junk (F.fin 1) a b F.pinf) :=
  ⟨(C62_dataset shw junk _ (zeroSet_small (by decide) (by decide) (by decide))).1 ' ',
    fun a b ha hb => (C62_distances junk (C62_bands 1 (by norm_num)) a b _ (by rw [ha]; decide) (by rw [hb]; decide)).2⟩

/-- A case for the envelope. -/
example (junk : α) : generateKeoghLU32 junk (List.replicate 1073741824 junk) 1073741823 = .ub "signed overflow" :=
  C62_envelope_counterexample junk _ (by rw [len, List.length_replicate]; decide) _ le_rfl

end Onex
