import Verif.Proofs.Int32Group

/-!
# Checked arithmetic agrees with unbounded arithmetic: datasets
-/

namespace Onex

variable {α : Type} [DataT α]

open DataT

theorem toUnsigned_id {x : Int} (h0 : 0 ≤ x) (h1 : x ≤ 2147483647) : toUnsigned x = x := by
  unfold toUnsigned; omega

/-! ## Loading -/

omit [DataT α] in
theorem loadTokens32_fits {stod : Text → Stod α} {row length startCol R : Int} (r0 : 0 ≤ row) (r1 : row < R) (s0 : 0 ≤ startCol)
    (hl : length ≤ intLimit) (hR : R * length ≤ intLimit) (n : ℕ) :
    ∀ (toks : List Text) (col : Int) (data : List α), 0 ≤ col → col + len toks = length → data.length = n →
      SameInt (fun d => d.length = n) (loadTokens32 stod row length startCol col toks data) (loadTokens stod row length startCol col toks data)
  | [], _, data, _, _, hn => SameInt.ok hn
  | tok :: toks, col, data, c0, hc, hn => by
    have hl' := hl
    have hR' := hR
    unfold intLimit at hl' hR'
    have ht := len_nonneg toks
    simp only [len_cons] at hc
    unfold loadTokens32 loadTokens
    refine SameInt.ite (fun hge => ?_) fun _ => loadTokens32_fits r0 r1 s0 hl hR n toks (col + 1) data (by omega) (by omega) hn
    cases stod tok with
    | invalid => exact .throw _
    | range => exact .throw _
    | val x =>
      have h1 := mul_lt_of r0 r1 (l := length - startCol) (by omega)
      have h2 : R * (length - startCol) ≤ R * length := mul_le_mul_of_nonneg_left (by omega) (by omega)
      simp only
      cks
      refine SameInt.both fun d hd => loadTokens32_fits r0 r1 s0 hl hR n toks (col + 1) d (by omega) (by omega) ?_
      rw [vset_len hd, hn]

theorem loadRows32_fits {stod : Text → Stod α} {seps : Text} {R startCol : Int} (s0 : 0 ≤ startCol) :
    ∀ (lines : List Text) (row length : Int) (data : Option (List α)), (∀ line ∈ lines, R * len (tokenize seps line) ≤ intLimit) →
      0 ≤ row → row + len lines ≤ R → R * length ≤ intLimit → -1 ≤ length → length ≤ intLimit →
      (∀ b, data = some b → len b ≤ intLimit) →
      SameInt (fun y => R * y.1 ≤ intLimit ∧ -1 ≤ y.1 ∧ y.1 ≤ intLimit ∧ ∀ b, y.2 = some b → len b ≤ intLimit)
        (loadRows32 stod seps R startCol row lines length data) (loadRows stod seps R startCol row lines length data)
  | [], row, length, data, _, r0, _, hl, l0, l1, hd => by
    unfold loadRows32 loadRows
    exact SameInt.ok ⟨hl, l0, l1, hd⟩
  | line :: lines, row, length, data, hb, r0, hr, hl, l0, l1, hd => by
    have hln := len_nonneg lines
    simp only [len_cons] at hr
    have ht0 := len_nonneg (tokenize seps line)
    have hRt := hb line (by simp)
    have ht1 : 1 * len (tokenize seps line) ≤ R * len (tokenize seps line) := mul_le_mul_of_nonneg_right (by omega) ht0
    have ht2 : len (tokenize seps line) ≤ intLimit := by omega
    have hR0 : 0 ≤ R * len (tokenize seps line) := mul_nonneg (by omega) ht0
    have hRt' := hRt
    have ht2' := ht2
    unfold intLimit at hRt' ht2'
    unfold loadRows32 loadRows
    simp only
    refine SameInt.ck (by constructor <;> omega) ?_
    have fin : ∀ (len' : Int) (data' : Option (List α)), len' = len (tokenize seps line) → (∀ b, data' = some b → len b ≤ intLimit) →
        SameInt (fun y => R * y.1 ≤ intLimit ∧ -1 ≤ y.1 ∧ y.1 ≤ intLimit ∧ ∀ b, y.2 = some b → len b ≤ intLimit)
          (match data' with
            | none => .ub "null dereference"
            | some d => do
              let d ← loadTokens32 stod row len' startCol 0 (tokenize seps line) d
              loadRows32 stod seps R startCol (row + 1) lines len' (some d))
          (match data' with
            | none => .ub "null dereference"
            | some d => do
              let d ← loadTokens stod row len' startCol 0 (tokenize seps line) d
              loadRows stod seps R startCol (row + 1) lines len' (some d)) := by
      rintro len' data' rfl hd'
      cases data' with
      | none => exact .ub _
      | some d =>
        refine SameInt.bind (loadTokens32_fits r0 (R := R) (by omega) s0 ht2 hRt d.length (tokenize seps line) 0 d le_rfl (by omega) rfl) fun d' hd2 => ?_
        refine loadRows32_fits s0 lines (row + 1) _ _ (fun l hl => hb l (by simp [hl])) (by omega) (by omega) hRt (by omega) ht2 ?_
        intro b hbb
        cases hbb
        have := hd' d rfl
        simp only [len] at this ⊢
        rw [hd2]; exact this
    refine SameInt.ite (fun _ => ?_) fun _ => SameInt.ite (fun _ => .throw _) fun hne => fin length data (by omega) hd
    refine SameInt.ck (by constructor <;> omega) ?_
    refine fin (len (tokenize seps line)) (some (List.replicate (R * len (tokenize seps line)).toNat zero)) rfl ?_
    intro b hbb
    cases hbb
    rw [len_replicate]
    omega

theorem len_take_le {β : Type} (l : List β) {k : Int} (hk : 0 ≤ k) : len (l.take k.toNat) ≤ k := by
  simp only [len, List.length_take]; omega

theorem rowLimit_le {m n : Int} (hn : 0 ≤ n) : 0 ≤ rowLimit m n ∧ rowLimit m n ≤ n := by
  unfold rowLimit
  split <;> omega

theorem loadData32_eq {stod : Text → Stod α} {file : Option Text} {filePath : String} {maxNumRow startCol : Int} {seps : Text}
    {ds : Dataset α} (s0 : 0 ≤ startCol) (s1 : startCol ≤ intLimit)
    (hf : ∀ text, file = some text → len (getLines text) ≤ intLimit ∧
      ∀ line ∈ getLines text, len (getLines text) * len (tokenize seps line) ≤ intLimit) :
    ds.loadData32 stod file filePath maxNumRow startCol seps = ds.loadData stod file filePath maxNumRow startCol seps ∧
    (∀ ds', ds.loadData stod file filePath maxNumRow startCol seps = (.ok (), ds') → 0 ≤ ds'.itemLength → ds'.Small) := by
  unfold Dataset.loadData32 Dataset.loadData
  cases file with
  | none =>
    refine ⟨rfl, fun ds' h => ?_⟩
    simp only [Prod.mk.injEq] at h
    exact absurd h.1 (by simp)
  | some text =>
    obtain ⟨h1, h2⟩ := hf text rfl
    have hn := len_nonneg (getLines text)
    obtain ⟨hr0, hr1⟩ := rowLimit_le (m := maxNumRow) hn
    have h1' := h1
    have s1' := s1
    unfold intLimit at h1' s1'
    have rows := loadRows32_fits (stod := stod) (seps := seps) (R := rowLimit maxNumRow (len (getLines text))) s0
      ((getLines text).take (rowLimit maxNumRow (len (getLines text))).toNat) 0 (-1) none
      (fun line hl => le_trans (mul_le_mul_of_nonneg_right hr1 (len_nonneg _)) (h2 line (List.mem_of_mem_take hl)))
      le_rfl (by rw [Int.zero_add]; exact len_take_le _ hr0) (by unfold intLimit; omega) le_rfl (by unfold intLimit; omega) (by intro b hb; cases hb)
    simp only
    rw [ck_eq (by constructor <;> omega), rows.eq]
    simp only [Res.bind_ok]
    cases hres : loadRows stod seps (rowLimit maxNumRow (len (getLines text))) startCol 0
        ((getLines text).take (rowLimit maxNumRow (len (getLines text))).toNat) (-1) none with
    | throw e => exact ⟨rfl, fun ds' h => absurd (congrArg Prod.fst h) (by simp)⟩
    | ub w => exact ⟨rfl, fun ds' h => absurd (congrArg Prod.fst h) (by simp)⟩
    | ok y =>
      obtain ⟨length, data⟩ := y
      obtain ⟨p1, p2, p3, p4⟩ := rows.post hres
      simp only at p1 p2 p3 p4
      have p3' := p3
      unfold intLimit at p3'
      simp only [Res.bind_ok]
      rw [ck_eq (by constructor <;> omega)]
      refine ⟨rfl, ?_⟩
      intro ds' h h0
      simp only [Prod.mk.injEq, true_and] at h
      subst h
      simp only at h0
      have hc : len ((getLines text).take (rowLimit maxNumRow (len (getLines text))).toNat) ≤ rowLimit maxNumRow (len (getLines text)) :=
        len_take_le _ hr0
      refine ⟨len_nonneg _, h0, by simp only; omega, by simp only; omega, ?_, p4⟩
      simp only
      refine le_trans (le_trans (mul_le_mul_of_nonneg_right hc h0) (mul_le_mul_of_nonneg_left ?_ hr0)) p1
      omega

/-! ## Saving -/

omit [DataT α] in
theorem saveText32_eq {shw : α → Text} {ds : Dataset α} (hd : ds.Small) (sep : Char) : ds.saveText32 shw sep = ds.saveText shw sep := by
  have ⟨c0, l0, c1, l1, p, _⟩ := hd
  unfold intLimit at p
  unfold Dataset.saveText32 Dataset.saveText
  refine forInt_congr' fun i out i0 i1 => ?_
  have hm := mul_lt_of i0 i1 l0
  rw [forInt_congr' fun j out j0 j1 => ?_]
  rw [ck_eq (by constructor <;> omega), ck_eq (by constructor <;> omega)]
  rfl

/-! ## Normalisation -/

theorem scanRow32_eq {b : List α} {length itemLength ts itemCount : Int} (l0 : 1 ≤ itemLength) (l1 : itemLength ≤ intLimit)
    (t0 : 0 ≤ ts) (t1 : ts < itemCount) (hv : itemCount * itemLength ≤ intLimit) (mm : α × α) :
    scanRow32 b length itemLength ts mm = scanRow b length itemLength ts mm := by
  have hm := mul_lt_of t0 t1 (l := itemLength) (by omega)
  unfold intLimit at l1 hv
  have loop : ∀ (i : Int) (mm : α × α), 0 ≤ i →
      (forInt2 i (toUnsigned (itemLength - 1)) mm fun i mm => do
        let x ← vget b (toUnsigned (ts * itemLength + i))
        let y ← vget b (toUnsigned (ts * itemLength + (i + 1)))
        let (x, y) := if gt x y then (y, x) else (x, y)
        let mx := if gt y mm.2 then y else mm.2
        let mn := if lt x mm.1 then x else mm.1
        return (mn, mx)) =
      (forInt2 i (toUnsigned (itemLength - 1)) mm fun i mm => do
        let x ← vget b (ts * itemLength + i)
        let y ← vget b (ts * itemLength + (i + 1))
        let (x, y) := if gt x y then (y, x) else (x, y)
        let mx := if gt y mm.2 then y else mm.2
        let mn := if lt x mm.1 then x else mm.1
        return (mn, mx)) := by
    intro i mm hi
    unfold forInt2
    rw [toUnsigned_id (x := itemLength - 1) (by omega) (by omega)]
    refine forInt_congr' fun k mm k0 k1 => ?_
    simp only
    rw [toUnsigned_id (by omega) (by omega), toUnsigned_id (by omega) (by omega)]
  unfold scanRow32 scanRow
  rw [ck_eq (by constructor <;> omega), ck_eq (by constructor <;> omega)]
  simp only [Res.bind_ok]
  have h1 := fun mm => loop 1 mm (by omega)
  have h0 := fun mm => loop 0 mm (by omega)
  by_cases hodd : length.tmod 2 ≠ 0
  · simp only [if_pos hodd]
    simp only [h1]
  · simp only [if_neg hodd]
    simp only [h0]

omit [DataT α] in
theorem mapRows32_fits {g : α → α} {itemCount itemLength : Int} (l0 : 0 ≤ itemLength) (l1 : itemLength ≤ intLimit)
    (hv : itemCount * itemLength ≤ intLimit) (b : List α) :
    SameInt (fun b' => b'.length = b.length) (mapRows32 g itemCount itemLength b) (mapRows g itemCount itemLength b) := by
  unfold intLimit at l1 hv
  unfold mapRows32 mapRows
  refine SameInt.forInt (I := fun _ (b' : List α) => b'.length = b.length) (fun ts b' t0 t1 hb' => ?_) rfl
  have hm := mul_lt_of t0 t1 l0
  rw [toUnsigned_id l0 (by omega)]
  refine SameInt.forInt (I := fun _ (b' : List α) => b'.length = b.length) (fun i b' i0 i1 hb' => ?_) hb'
  refine SameInt.ck (by constructor <;> omega) ?_
  rw [toUnsigned_id (by omega) (by omega)]
  exact SameInt.both fun v _ => SameInt.same fun b'' h => by rw [vset_len h, hb']

theorem normalize32_eq {ds : Dataset α} (hd : ds.Small) :
    ds.normalize32 = ds.normalize ∧ ∀ mm ds', ds.normalize = (.ok mm, ds') → ds'.Small := by
  have ⟨c0, l0, c1, l1, p, hbuf⟩ := hd
  have p' := p
  unfold intLimit at p'
  have h0 : 0 ≤ ds.itemLength * ds.itemCount := mul_nonneg l0 c0
  have hc : ds.itemLength * ds.itemCount = ds.itemCount * ds.itemLength := mul_comm _ _
  unfold Dataset.normalize32 Dataset.normalize
  simp only
  rw [ck_eq (by constructor <;> omega)]
  simp only
  by_cases hz : ds.itemLength * ds.itemCount = 0
  · simp only [if_pos hz]
    exact ⟨trivial, fun mm ds' h => absurd (congrArg Prod.fst h) (by simp)⟩
  simp only [if_neg hz]
  have hl : 1 ≤ ds.itemLength := by
    rcases lt_or_ge ds.itemLength 1 with h | h
    · exfalso; apply hz; have : ds.itemLength = 0 := by omega
      rw [this]; simp
    · exact h
  have key : SameInt (fun y => y.1.Small)
      (do
        let b ← ds.buf
        let (mn, mx) ← forInt 0 ds.itemCount (inf, ninf) fun ts mm => scanRow32 b (ds.itemLength * ds.itemCount) ds.itemLength ts mm
        let diff := sub mx mn
        let b ←
          if eq diff zero then
            if !(eq mx zero) then mapRows32 (fun _ => zero) ds.itemCount ds.itemLength b
            else pure b
          else mapRows32 (fun v => div (sub v mn) diff) ds.itemCount ds.itemLength b
        return (({ ds with data := some b, normalized := true } : Dataset α), (mn, mx)))
      (do
        let b ← ds.buf
        let (mn, mx) ← forInt 0 ds.itemCount (inf, ninf) fun ts mm => scanRow b (ds.itemLength * ds.itemCount) ds.itemLength ts mm
        let diff := sub mx mn
        let b ←
          if eq diff zero then
            if !(eq mx zero) then mapRows (fun _ => zero) ds.itemCount ds.itemLength b
            else pure b
          else mapRows (fun v => div (sub v mn) diff) ds.itemCount ds.itemLength b
        return (({ ds with data := some b, normalized := true } : Dataset α), (mn, mx))) := by
    refine SameInt.both fun b hb => ?_
    have hbs : len b ≤ intLimit := by
      unfold Dataset.buf at hb
      cases hdat : ds.data with
      | none => simp [hdat] at hb
      | some b' => simp only [hdat] at hb; cases hb; exact hbuf b hdat
    rw [forInt_congr' (fun ts mm t0 t1 => scanRow32_eq (length := ds.itemLength * ds.itemCount) hl l1 t0 t1 p mm)]
    refine SameInt.both fun mm _ => ?_
    obtain ⟨mn, mx⟩ := mm
    simp only
    have fin : ∀ b' : List α, b'.length = b.length → Dataset.Small { ds with data := some b', normalized := true } := by
      intro b' hb'
      refine ⟨c0, l0, c1, l1, p, ?_⟩
      intro b2 h2
      cases h2
      simp only [len] at hbs ⊢
      rw [hb']; exact hbs
    refine SameInt.ite (fun _ => SameInt.ite (fun _ => ?_) fun _ => SameInt.ok (fin b rfl)) fun _ => ?_
    · exact SameInt.bind (mapRows32_fits l0 l1 p b) fun b' hb' => SameInt.ok (fin b' hb')
    · exact SameInt.bind (mapRows32_fits l0 l1 p b) fun b' hb' => SameInt.ok (fin b' hb')
  have e := key.eq
  constructor
  · rw [e]
    rfl
  · intro mm ds' h
    split at h
    · rename_i ds2 mm2 hrun
      simp only [Prod.mk.injEq, Res.ok.injEq] at h
      obtain ⟨rfl, rfl⟩ := h
      exact key.post hrun
    · simp at h
    · simp at h

/-! ## PAA -/

theorem doPAA32_fits {src : List α} {so dof srcLength n : Int} {dest : List α} (h1 : srcLength ≤ intLimit) :
    SameInt (fun d => d.length = dest.length) (doPAA32 src so dest dof srcLength n) (doPAA src so dest dof srcLength n) := by
  unfold intLimit at h1
  unfold doPAA32 doPAA
  refine SameInt.bind (SameInt.forInt (I := fun i (s : PaaState α) => 0 ≤ s.count ∧ s.count ≤ i ∧ s.dest.length = dest.length) ?_ ⟨le_rfl, le_rfl, rfl⟩)
    fun s hs => SameInt.ok hs.2.2
  rintro i s i0 i1 ⟨s0, s1, s2⟩
  refine SameInt.ck (by constructor <;> omega) (SameInt.ck (by constructor <;> omega) ?_)
  refine SameInt.both fun v _ => SameInt.ite (fun _ => ?_) fun _ => SameInt.ok ⟨by simp only; omega, by simp only; omega, s2⟩
  refine SameInt.both fun d hd => SameInt.ok ⟨le_rfl, by simp only; omega, ?_⟩
  simp only
  rw [vset_len hd, s2]

theorem calcPAALength_le {l n : Int} (l0 : 0 ≤ l) (hn : 1 ≤ n) : 0 ≤ calcPAALength l n ∧ calcPAALength l n ≤ max l 1 := by
  unfold calcPAALength
  rcases lt_or_ge 0 l with h | h
  · have h1 := Int.tdiv_nonneg (a := l - 1) (b := n) (by omega) (by omega)
    have h2 : (l - 1).tdiv n ≤ l - 1 := Int.tdiv_le_self n (by omega)
    omega
  · have : l = 0 := by omega
    subst this
    have h1 : (0 - 1 : Int).tdiv n = -((1 : Int).tdiv n) := by
      rw [show (0 - 1 : Int) = -1 by omega, Int.neg_tdiv]
    have h2 := Int.tdiv_nonneg (a := 1) (b := n) (by omega) (by omega)
    have h3 : (1 : Int).tdiv n ≤ 1 := Int.tdiv_le_self n (by omega)
    omega

theorem PAA32_eq {ds : Dataset α} (hd : ds.Small) (junk : α) (n : Int) :
    ds.PAA32 junk n = ds.PAA junk n ∧ ∀ ds', ds.PAA junk n = (.ok (), ds') → ds'.Small := by
  have ⟨c0, l0, c1, l1, p, hbuf⟩ := hd
  have p' := p
  have c1' := c1
  have l1' := l1
  unfold intLimit at p' c1' l1'
  unfold Dataset.PAA32 Dataset.PAA
  by_cases hn : n ≤ 0
  · simp only [if_pos hn]
    exact ⟨trivial, fun ds' h => absurd (congrArg Prod.fst h) (by simp)⟩
  simp only [if_neg hn]
  obtain ⟨q0, q1⟩ := calcPAALength_le (l := ds.itemLength) (n := n) l0 (by omega)
  have hprod : ds.itemCount * calcPAALength ds.itemLength n ≤ intLimit := by
    rcases lt_or_ge 0 ds.itemLength with h | h
    · exact le_trans (mul_le_mul_of_nonneg_left (by omega) c0) p
    · refine le_trans (mul_le_mul_of_nonneg_left (b := calcPAALength ds.itemLength n) (c := 1) (by omega) c0) ?_
      omega
  have hprod0 : 0 ≤ ds.itemCount * calcPAALength ds.itemLength n := mul_nonneg c0 q0
  have hprod' := hprod
  unfold intLimit at hprod'
  rw [ck_eq (e := ds.itemLength - 1) (by constructor <;> omega), ck_eq (e := calcPAALength ds.itemLength n) (by constructor <;> omega),
    ck_eq (e := ds.itemCount * calcPAALength ds.itemLength n) (by constructor <;> omega)]
  simp only [Res.bind_ok]
  rw [if_neg (by omega), if_neg (by omega)]
  have key : SameInt (fun d => d.length = (List.replicate (ds.itemCount * calcPAALength ds.itemLength n).toNat junk).length)
      (forInt 0 ds.itemCount (List.replicate (ds.itemCount * calcPAALength ds.itemLength n).toNat junk) fun ts nb => do
        let b ← ds.buf
        ck (ts * ds.itemLength)
        ck (ts * calcPAALength ds.itemLength n)
        doPAA32 b (ts * ds.itemLength) nb (ts * calcPAALength ds.itemLength n) ds.itemLength n)
      (forInt 0 ds.itemCount (List.replicate (ds.itemCount * calcPAALength ds.itemLength n).toNat junk) fun ts nb => do
        let b ← ds.buf
        doPAA b (ts * ds.itemLength) nb (ts * calcPAALength ds.itemLength n) ds.itemLength n) := by
    refine SameInt.forInt (I := fun _ (d : List α) => d.length = (List.replicate (ds.itemCount * calcPAALength ds.itemLength n).toNat junk).length) ?_ rfl
    intro ts nb t0 t1 hnb
    have hm := mul_lt_of t0 t1 l0
    have hm2 := mul_lt_of t0 t1 q0
    refine SameInt.both fun b _ => SameInt.ck (by constructor <;> omega) (SameInt.ck (by constructor <;> omega) ?_)
    exact (doPAA32_fits l1).mono fun d hd => by rw [hd, hnb]
  constructor
  · rw [key.eq]
    rfl
  · intro ds' h
    split at h
    · rename_i nb hrun
      simp only [Prod.mk.injEq, true_and] at h
      subst h
      refine ⟨c0, q0, c1, by simp only [intLimit]; omega, hprod, ?_⟩
      intro b hb
      cases hb
      have := key.post hrun
      simp only [List.length_replicate] at this
      simp only [len]
      omega
    · simp at h
    · simp at h

end Onex
