import Verif.Spec.Answer
import Verif.Spec.Leader
import Verif.Spec.Paa
import Verif.Spec.Api
import Verif.Spec.Command
import Verif.Props.Load

/-!
# The library as its user sees it

The state is what a user would keep on paper: for each id the table of numbers, the name of the file, whether it was normalised
and with which threshold it was last grouped. Numbers are real and arithmetic is exact.
-/

namespace Onex.Spec

/-- A loaded dataset. -/
structure Entry where
  path : String
  length : ℕ
  rows : List (List ℝ)
  normalized : Bool
  threshold : Option ℝ

/-- The facts shown for a dataset. -/
def Entry.info (e : Entry) (id : Int) : DatasetInfo :=
  { id := id, name := e.path, itemCount := e.rows.length, itemLength := e.length, isGrouped := e.threshold.isSome,
    isNormalized := e.normalized }

/-- The groups of each length when grouping with threshold `st`. -/
def Entry.Groups (e : Entry) (st : ℝ) (G : Int → List (List Coord)) : Prop :=
  ∀ l : Int, 2 ≤ l → l ≤ e.length →
    Leader (fun c c' => rms (subVals e.rows l c) (subVals e.rows l c')) (st / 2) (subOrder e.rows.length (e.length - l + 1).toNat)
      (G l)

/-- `vals` are the values `start .. stop - 1` of row `index`, or the whole row if both are negative. -/
def Entry.Window (e : Entry) (index start stop : Int) (vals : List ℝ) : Prop :=
  0 ≤ index ∧ ∃ row, e.rows[index.toNat]? = some row ∧
    (start < 0 ∧ stop < 0 ∧ vals = row ∨
      0 ≤ start ∧ start < stop ∧ stop ≤ e.length ∧ vals = (row.drop start.toNat).take (stop - start).toNat)

/-- The text of a saved table, `sep` after every number. -/
def Entry.text (e : Entry) (shw : F Rounding.exact → Text) (sep : Char) : Text :=
  e.rows.flatMap fun r => (r.flatMap fun v => shw (F.fin v) ++ [sep]) ++ ['\n']

/-- The library: a dataset for some ids, and the band ratio. -/
structure Lib where
  entry : Int → Option Entry
  ratio : ℝ

/-- Nothing loaded. -/
def Lib.new (ratio : ℝ) : Lib := ⟨fun _ => none, ratio⟩

/-- One id bound or freed. -/
def Lib.set (A : Lib) (id : Int) (e : Option Entry) : Lib := { A with entry := fun j => if j = id then e else A.entry j }

/-- The least id not in use. -/
def Lib.Next (A : Lib) (id : Int) : Prop := 0 ≤ id ∧ A.entry id = none ∧ ∀ j, 0 ≤ j → j < id → A.entry j ≠ none

/-- The band of series of length `n` is an `int`. -/
def Lib.Fits (A : Lib) (n : ℕ) : Prop := 0 ≤ A.ratio ∧ (n : ℝ) * A.ratio < 2147483648

/-- What the user gets back. -/
inductive Reply where
  | done
  | info (i : DatasetInfo)
  | infos (l : List DatasetInfo)
  | range (lo hi : ℝ)
  | number (n : Int)
  | text (t : Text)
  | window (index start stop : Int) (dist : F Rounding.exact)
  | error

/-- One call: what the user gets back and the library afterwards. Calls for which there is no rule are outside this description. -/
inductive Lib.Step (env : Env (F Rounding.exact)) (A : Lib) : Call (F Rounding.exact) → Reply → Lib → Prop where
  /-- A file of `c` columns, of which those from `s` on are used. -/
  | load {text lines path maxNumRow seps toks rows} {s c k : ℕ} {id : Int} (hf : FileHas text lines)
      (hk : k = rowsToRead maxNumRow lines.length) (hk1 : 1 ≤ k)
      (ht : List.Forall₂ (fun l ts => LineHas seps l ts ∧ ts.length = c) (lines.take k) toks) (hs : s < c)
      (hv : List.Forall₂ (fun ts row => List.Forall₂ (fun t x => env.stod t = .val (F.fin x)) (ts.drop s) row) toks rows)
      (hid : A.Next id) :
      Step env A (.load (some text) path maxNumRow s seps) (.info (Entry.info ⟨path, c - s, rows, false, none⟩ id))
        (A.set id (some ⟨path, c - s, rows, false, none⟩))
  | loadFails {file path maxNumRow seps} {s : ℕ}
      (h : ¬ ∃ text lines, file = some text ∧ FileHas text lines ∧
        Rectangular env.stod seps s (lines.take (rowsToRead maxNumRow lines.length))) :
      Step env A (.load file path maxNumRow s seps) .error A
  | unknown {c id} (hid : id ∈ ids c) (h : A.entry id = none) : Step env A c .error A
  | save {id e path sep} (h : A.entry id = some e) : Step env A (.save id true path sep) (.text (e.text env.io.show6 sep)) A
  | saveFails {id e path sep} (h : A.entry id = some e) : Step env A (.save id false path sep) .error A
  | unload {id e} (h : A.entry id = some e) : Step env A (.unload id) .done (A.set id none)
  | unloadAll : Step env A .unloadAll .done (Lib.new A.ratio)
  | info {id e} (h : A.entry id = some e) : Step env A (.info id) (.info (e.info id)) A
  | allInfo {l} (hl : (l.map DatasetInfo.id).Pairwise (· < ·)) (hm : ∀ x, x ∈ l ↔ ∃ e, A.entry x.id = some e ∧ x = e.info x.id) :
      Step env A .allInfo (.infos l) A
  /-- Only before grouping, and for the shapes on which the least and greatest value are found (C20). -/
  | normalize {id e lo hi} (h : A.entry id = some e) (hg : e.threshold = none) (hsize : e.length < 2 ^ 31)
      (hpar : Even e.length ∨ Odd e.rows.length) (hlo : IsLeast {x | ∃ r ∈ e.rows, x ∈ r} lo)
      (hhi : IsGreatest {x | ∃ r ∈ e.rows, x ∈ r} hi) :
      Step env A (.normalize id) (.range lo hi)
        (A.set id (some { e with rows := e.rows.map fun r => r.map fun v => if lo = hi then 0 else (v - lo) / (hi - lo),
                                 normalized := true }))
  /-- An even number of series of odd length: the range is that of the values that are not the last of their series, and if it is the single
  value 0 nothing changes (C20). -/
  | normalizeOdd {id e lo hi} (h : A.entry id = some e) (hg : e.threshold = none) (hsize : e.length < 2 ^ 31) (h3 : 3 ≤ e.length)
      (hodd : Odd e.length) (heven : Even e.rows.length) (hlo : IsLeast {x | ∃ r ∈ e.rows, x ∈ r.dropLast} lo)
      (hhi : IsGreatest {x | ∃ r ∈ e.rows, x ∈ r.dropLast} hi) :
      Step env A (.normalize id) (.range lo hi)
        (A.set id (some { e with rows := e.rows.map fun r => r.map fun v =>
                                   if lo = hi then if lo = 0 then v else 0 else (v - lo) / (hi - lo),
                                 normalized := true }))
  /-- Whenever a progress report is due, there are five windows to group (C36). -/
  | group {id e st G} (h : A.entry id = some e) (hfit : A.Fits e.length)
      (hlog : ∀ l : ℕ, 2 ≤ l → l ≤ e.length → env.doLog l = true → 5 ≤ e.rows.length * (e.length - l + 1)) (hG : e.Groups st G) :
      Step env A (.group id (F.fin st)) (.number (((List.range' 2 (e.length - 1)).map fun l : ℕ => (G l).length).sum : ℕ))
        (A.set id (some { e with threshold := some st }))
  | setRatio {ratio} : Step env A (.setRatio (F.fin ratio)) .done { A with ratio := ratio }
  | bestMatch {r q index start stop er eq st G vals l c} (hr : A.entry r = some er) (hq : A.entry q = some eq)
      (hg : er.threshold = some st) (hw : eq.Window index start stop vals) (h2 : 2 ≤ vals.length) (hL : vals.length ≤ er.length)
      (hfit : A.Fits er.length) (hG : er.Groups st G)
      (ha : Answer (fun l c => warped A.ratio vals (subVals er.rows l c)) G er.length vals.length l c) :
      Step env A (.bestMatch r q index start stop) (.window c.1 c.2 (c.2 + l) (warped A.ratio vals (subVals er.rows l c))) A
  | badWindow {r q index start stop er eq} (hr : A.entry r = some er) (hq : A.entry q = some eq)
      (hw : ∀ vals, ¬ eq.Window index start stop vals) : Step env A (.bestMatch r q index start stop) .error A
  | rejected {r q index start stop er eq vals} (hr : A.entry r = some er) (hq : A.entry q = some eq)
      (hw : eq.Window index start stop vals) (h : er.threshold = none ∨ vals.length < 2) :
      Step env A (.bestMatch r q index start stop) .error A
  /-- Only before grouping. -/
  | paa {id e rows} {n : ℕ} (h : A.entry id = some e) (hg : e.threshold = none) (hn : 1 ≤ n)
      (hp : List.Forall₂ (IsPaa n) e.rows rows) :
      Step env A (.paa id n) (.info (Entry.info { e with length := (e.length + n - 1) / n, rows := rows } id))
        (A.set id (some { e with length := (e.length + n - 1) / n, rows := rows }))
  | badBlock {id e n} (h : A.entry id = some e) (hn : n ≤ 0) : Step env A (.paa id n) .error A

/-- The calls described: on real numbers, in band ratios for which the band is an `int`, without the group files of C32 and C63, without
changing a dataset that is grouped (C37), without queries longer than the searched series (C34), and with files of at least one row that
reach beyond the first column used. -/
def Lib.Covers (env : Env (F Rounding.exact)) (A : Lib) : Call (F Rounding.exact) → Prop
  | .load file _ maxNumRow s seps => 0 ≤ s ∧ (∀ t x, env.stod t = .val x → ∃ y, x = F.fin y) ∧
      ∀ text lines, file = some text → FileHas text lines →
        Rectangular env.stod seps s.toNat (lines.take (rowsToRead maxNumRow lines.length)) →
        ∃ l ∈ lines.take (rowsToRead maxNumRow lines.length), ∀ ts, LineHas seps l ts → s.toNat < ts.length
  | .setRatio ratio => ∃ x, ratio = F.fin x
  | .normalize id => ∀ e, A.entry id = some e → e.threshold = none ∧ e.length < 2 ^ 31 ∧
      (Even e.length ∨ Odd e.rows.length ∨ 3 ≤ e.length)
  | .group id th => ∀ e, A.entry id = some e → (∃ st, th = F.fin st) ∧ A.Fits e.length ∧
      ∀ l : ℕ, 2 ≤ l → l ≤ e.length → env.doLog l = true → 5 ≤ e.rows.length * (e.length - l + 1)
  | .saveGroup id _ _ => A.entry id = none
  | .loadGroup id _ => A.entry id = none
  | .bestMatch r q index start stop => ∀ er eq vals, A.entry r = some er → A.entry q = some eq → er.threshold ≠ none →
      eq.Window index start stop vals → 2 ≤ vals.length → vals.length ≤ er.length ∧ A.Fits er.length
  | .paa id _ => ∀ e, A.entry id = some e → e.threshold = none
  | _ => True

/-- Calls one after the other, each with its environment. -/
inductive Lib.Run : Lib → List (Env (F Rounding.exact) × Call (F Rounding.exact)) → List Reply → Lib → Prop where
  | nil {A} : Run A [] [] A
  | cons {env A c r A' calls rs B} (h : Lib.Step env A c r A') (hs : Run A' calls rs B) : Run A ((env, c) :: calls) (r :: rs) B

/-- The call returned, or threw, what the user was to get. -/
inductive Replies : Reply → Res (Ans (F Rounding.exact)) → Prop where
  | done : Replies .done (.ok .unit)
  | info (i) : Replies (.info i) (.ok (.info i))
  | infos (l) : Replies (.infos l) (.ok (.infos l))
  | range (lo hi : ℝ) : Replies (.range lo hi) (.ok (.pair (F.fin lo, F.fin hi)))
  | number (n) : Replies (.number n) (.ok (.int n))
  | text (t) : Replies (.text t) (.ok (.text t))
  | window (v : View) (d) : Replies (.window v.index v.start v.stop d) (.ok (.cand { ts := v, dist := d }))
  | error (m) : Replies .error (.throw (.onex m))

end Onex.Spec
