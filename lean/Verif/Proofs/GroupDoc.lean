import Verif.Proofs.GroupKeep
import Verif.Spec.GroupDoc

/-!
# Reading group files, whoever wrote them
-/

namespace Onex
open DataT Spec

set_option linter.unusedSectionVars false

variable {α : Type} [DataT α] {io : NumIO α} {P : α → Prop} {rt rt6 : α → α}

/-- The contents of a description. -/
def contents (d : GroupDoc α) (l : Int) : List (Content α) := (d.groups l.toNat).map fun g => (g.rep, g.members)

theorem printData_flatMap (vals : List α) : vals.flatMap (fun v => io.show16 v ++ [' ']) = printData io vals := by
  induction vals with
  | nil => rfl
  | cons v vals ih => simp [printData, ih]

theorem members_flatMap (ms : List Coord) :
    ms.flatMap (fun c => showInt c.1 ++ [' '] ++ (showInt c.2 ++ [' '])) = membersText ms := by
  induction ms with
  | nil => rfl
  | cons c ms ih =>
    rw [List.flatMap_cons, ih]
    simp [membersText]

theorem group_text (g : FileGroup α) : g.text io = groupText io (g.rep, g.members) := by
  unfold FileGroup.text groupText
  rw [printData_flatMap, members_flatMap]
  simp

theorem groups_text (gs : List (FileGroup α)) :
    gs.flatMap (·.text io) = groupsText io (gs.map fun g => (g.rep, g.members)) := by
  induction gs with
  | nil => rfl
  | cons g gs ih =>
    rw [List.flatMap_cons, ih, group_text]
    rfl

theorem lengths_text (d : GroupDoc α) : ∀ (j l : ℕ),
    (List.range' l j).flatMap (fun l => showInt (d.groups l).length ++ ['\n'] ++ (d.groups l).flatMap (·.text io)) =
      allText io (contents d) l j
  | 0, _ => rfl
  | j + 1, l => by
    rw [List.range'_succ, List.flatMap_cons, lengths_text d j (l + 1), groups_text]
    simp [allText, localText, contents]

theorem doc_text (cnt L : ℕ) (d : GroupDoc α) :
    d.text io cnt L = fileText io d.threshold cnt L (contents d) d.distance := by
  unfold GroupDoc.text fileText spaceText
  rw [lengths_text]
  simp

theorem doc_distance {cnt L : ℕ} {d : GroupDoc α} (h : d.Fits P cnt L) : ∃ dn, getDistance d.distance = .ok dn := by
  rcases h.distance with e | e <;> rw [e] <;> exact ⟨_, rfl⟩

theorem doc_readOk {cnt L : ℕ} (hfit : SizeOk cnt L) {d : GroupDoc α} (h : d.Fits P cnt L) (l : Int) (l2 : 2 ≤ l) (lL : l ≤ L) :
    ReadOk P cnt L l (contents d l) := by
  obtain ⟨l, rfl⟩ := Int.eq_ofNat_of_zero_le (by omega : 0 ≤ l)
  have h2 : 2 ≤ l := by omega
  have hL : l ≤ L := by omega
  have hprod : (cnt : Int) * (L : Int) ≤ 2147483647 := by exact_mod_cast hfit.prod
  have hc1 := hfit.count
  have hc2 := hfit.length
  have hflat : ((contents d l).map Prod.snd).flatten = ((d.groups l).map (·.members)).flatten := by
    simp [contents, Function.comp_def]
  have hmem : ∀ x ∈ contents d l, ∃ g ∈ d.groups l, x = (g.rep, g.members) := by
    intro x hx
    simp only [contents, Int.toNat_natCast, List.mem_map] at hx
    obtain ⟨g, hg, rfl⟩ := hx
    exact ⟨g, hg, rfl⟩
  refine ⟨?_, ?_, by rw [hflat]; exact h.once l h2 hL, ?_, ?_⟩
  · intro x hx
    obtain ⟨g, hg, rfl⟩ := hmem x hx
    simpa using (h.rep l h2 hL g hg).1
  · intro x hx
    obtain ⟨g, hg, rfl⟩ := hmem x hx
    exact (h.rep l h2 hL g hg).2
  · have := h.count l h2 hL
    simp only [contents, List.length_map, Int.toNat_natCast, inIntRange, decide_eq_true_eq]
    omega
  · intro x hx
    obtain ⟨g, hg, rfl⟩ := hmem x hx
    have hsub := h.member l h2 hL g hg
    have hnd : g.members.Nodup := (List.nodup_flatten.mp (h.once l h2 hL)).1 _ (List.mem_map_of_mem hg)
    have hle : (cnt : Int) * ((L : Int) - l + 1) ≤ cnt * L := mul_le_mul_of_nonneg_left (by omega) (by omega)
    have hge : 0 ≤ (cnt : Int) * ((L : Int) - l + 1) := mul_nonneg (by omega) (by omega)
    have hlen := members_le (ds := ⟨(none : Option (List α)), 0, L, cnt, "", false⟩) (l := (l : Int))
      (mm := List.replicate ((cnt : Int) * ((L : Int) - l + 1)).toNat Membership.default) (by simp [len]; exact hge) hsub hnd
    rw [List.length_replicate] at hlen
    refine ⟨by simp only [inIntRange, decide_eq_true_eq]; omega, fun c hc => ⟨hsub c hc, ?_⟩⟩
    obtain ⟨⟨a1, a2⟩, a3, a4⟩ := hsub c hc
    simp only [inIntRange, decide_eq_true_eq]
    constructor <;> omega

/-- A description that fits is read. -/
theorem doc_load {env : Env α} (hio : IOok env.io P rt rt6) {cnt L : ℕ} (hfit : SizeOk cnt L) {d : GroupDoc α}
    (h : d.Fits P cnt L) {t : GSet α} (hc : t.ds.itemCount = cnt) (hl : t.ds.itemLength = L) :
    ∃ n locals', t.loadGroups env (some (d.text env.io cnt L)) =
        (.ok n, { t with groups := some { locals := locals', distanceName := d.distance }, threshold := some (rt6 d.threshold) }) ∧
      LoadedAll rt t.ds L locals' (contents d) ∧ n = (locals'.map entryGroups).sum := by
  obtain ⟨dn, hn⟩ := doc_distance h
  have h1 := hfit.count
  have h2 := hfit.length
  rw [doc_text, ← hc]
  exact load_content hio (fun l l2 lL => by rw [hc, hl]; exact doc_readOk hfit h l l2 lL) hl (by omega) (by omega) (by omega) hn
    h.threshold

theorem doc_count {d : GroupDoc α} {L : ℕ} {ds : Dataset α} {locals : List (Option (LocalSpace α))}
    (h : LoadedAll rt ds L locals (contents d)) :
    (locals.map entryGroups).sum = (((List.range' 2 (L - 1)).map fun l => (d.groups l).length).sum : ℕ) := by
  have key : ∀ m : ℕ, m ≤ locals.length → ((locals.take m).map entryGroups).sum =
      (((List.range' 2 (m - 2)).map fun l => (d.groups l).length).sum : ℕ) := by
    intro m
    have hsz := h.size
    simp only [len] at hsz
    induction m with
    | zero => intro _; rfl
    | succ m ih =>
      intro hm
      have hlt : m < locals.length := by omega
      rw [List.take_succ_eq_append_getElem hlt, List.map_append, List.sum_append, ih (by omega)]
      have e := vget_nat hlt
      by_cases hm2 : m < 2
      · rw [h.short m (by omega) (by omega) (by omega), Res.ok.injEq] at e
        rw [← e, show m + 1 - 2 = m - 2 from by omega]
        simp [entryGroups]
      · obtain ⟨ls, e1, e2⟩ := h.at_ m (by omega) (by omega)
        rw [e1, Res.ok.injEq] at e
        rw [← e, show m + 1 - 2 = (m - 2) + 1 from by omega, List.range'_concat, List.map_append, List.sum_append]
        have := e2.space.card
        simp only [contents, List.length_map, Int.toNat_natCast] at this
        simp [entryGroups, this, show 2 + (m - 2) = m from by omega]
  have hsz := h.size
  simp only [len] at hsz
  have := key locals.length (le_refl _)
  rw [List.take_length] at this
  rw [this, show locals.length - 2 = L - 1 from by omega]

/-- What is read is what the file describes. -/
theorem doc_held {d : GroupDoc α} {L : ℕ} {s : GSet α} {gs : GlobalSpace α} (hg : s.groups = some gs)
    (h : LoadedAll rt s.ds L gs.locals (contents d)) : d.HeldBy rt L s := by
  refine ⟨?_, ?_⟩
  · rintro l ls ⟨gs0, e1, e2⟩
    rw [hg, Option.some.injEq] at e1
    subst e1
    obtain ⟨i0, i1⟩ := vget_lt e2
    rw [h.size] at i1
    refine ⟨?_, by omega⟩
    by_contra hlt
    rw [h.short l i0 (by omega) (by omega)] at e2
    simp at e2
  · intro l h2 hL
    obtain ⟨ls, e1, e2⟩ := h.at_ l (by omega) (by omega)
    have hcard := e2.space.card
    simp only [contents, List.length_map, Int.toNat_natCast] at hcard
    refine ⟨ls, ⟨gs, hg, e1⟩, hcard, ?_⟩
    intro k hk hk'
    have hkC : k < (contents d l).length := by simpa [contents] using hk'
    have hc := e2.cent k hk hkC
    have hi := e2.space.inv k hk (by simpa using hkC)
    have hm := getMembers_spec (by omega) e2.space.mapLen hi
    have hn := hi.count
    simp only [contents, List.getElem_map, Int.toNat_natCast] at hc hm hn
    refine ⟨⟨{ vals := (d.groups l)[k].rep.map rt, cache := none }, ?_, rfl⟩, hm, by rw [hn]; simp⟩
    rw [hc]
    rfl

end Onex
