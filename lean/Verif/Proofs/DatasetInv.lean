import Verif.Proofs.Save

/-!
# Shape invariants of dataset operations that hold for every number type
-/

namespace Onex

set_option linter.unusedSectionVars false

theorem forIntGo_inv {σ : Type} {body : Int → σ → Res σ} (P : σ → Prop)
    (hb : ∀ i s s', P s → body i s = .ok s' → P s') :
    ∀ (k : Nat) (i : Int) (s s' : σ), P s → forIntGo body k i s = .ok s' → P s'
  | 0, i, s, s', h, e => by
    cases e
    exact h
  | k + 1, i, s, s', h, e => by
    unfold forIntGo at e
    obtain ⟨t, h1, h2⟩ := Res.bind_eq_ok.mp e
    exact forIntGo_inv P hb k _ _ _ (hb i s t h h1) h2

/-- What every successful iteration preserves holds after the loop. -/
theorem forInt_inv {σ : Type} {lo hi : Int} {body : Int → σ → Res σ} {s s' : σ} (P : σ → Prop)
    (hb : ∀ i s s', P s → body i s = .ok s' → P s') (h : P s) (e : forInt lo hi s body = .ok s') : P s' :=
  forIntGo_inv P hb _ _ _ _ h e

variable {α : Type} [DataT α]

theorem mapRows_length {g : α → α} {n L : Int} {b b' : List α} (h : mapRows g n L b = .ok b') :
    b'.length = b.length := by
  refine forInt_inv (fun x => x.length = b.length) ?_ rfl h
  intro i s s' hs e
  refine forInt_inv (fun x => x.length = b.length) ?_ hs e
  intro j t t' ht e
  obtain ⟨v, _, e⟩ := Res.bind_eq_ok.mp e
  rw [vset_len e, ht]

theorem doPAA_length {src : List α} {o1 o2 L n : Int} {d d' : List α} (h : doPAA src o1 d o2 L n = .ok d') :
    d'.length = d.length := by
  unfold doPAA at h
  obtain ⟨s, h1, h2⟩ := Res.bind_eq_ok.mp h
  cases h2
  refine forInt_inv (fun x : PaaState α => x.dest.length = d.length) ?_ rfl h1
  intro j t t' ht e
  obtain ⟨v, _, e⟩ := Res.bind_eq_ok.mp e
  split at e
  · obtain ⟨v, h3, e⟩ := Res.bind_eq_ok.mp e
    cases e
    simpa [vset_len h3] using ht
  · cases e
    exact ht

/-- `normalize` keeps the shape. -/
theorem normalize_shape (ds : Dataset α) :
    (ds.normalize.2.itemCount = ds.itemCount ∧ ds.normalize.2.itemLength = ds.itemLength ∧
      ds.normalize.2.gen = ds.gen) ∧
      (ds.normalize.2.data = ds.data ∨ ∃ b b', ds.data = some b ∧ ds.normalize.2.data = some b' ∧
        b'.length = b.length) := by
  unfold Dataset.normalize
  dsimp only
  split
  · exact ⟨⟨rfl, rfl, rfl⟩, .inl rfl⟩
  · split
    · rename_i ds' mm hrun
      obtain ⟨b, hb, hrun⟩ := Res.bind_eq_ok.mp hrun
      obtain ⟨⟨mn, mx⟩, _, hrun⟩ := Res.bind_eq_ok.mp hrun
      have hd : ds.data = some b := by
        unfold Dataset.buf at hb
        split at hb
        · cases hb; assumption
        · cases hb
      dsimp only at hrun
      split at hrun
      · split at hrun
        · obtain ⟨b', h1, h2⟩ := Res.bind_eq_ok.mp hrun
          cases h2
          exact ⟨⟨rfl, rfl, rfl⟩, .inr ⟨b, b', hd, rfl, mapRows_length h1⟩⟩
        · cases hrun
          exact ⟨⟨rfl, rfl, rfl⟩, .inr ⟨b, b, hd, rfl, rfl⟩⟩
      · obtain ⟨b', h1, h2⟩ := Res.bind_eq_ok.mp hrun
        cases h2
        exact ⟨⟨rfl, rfl, rfl⟩, .inr ⟨b, b', hd, rfl, mapRows_length h1⟩⟩
    · exact ⟨⟨rfl, rfl, rfl⟩, .inl rfl⟩
    · exact ⟨⟨rfl, rfl, rfl⟩, .inl rfl⟩

theorem normalize_readable {ds : Dataset α} (h : ds.Readable) : ds.normalize.2.Readable := by
  obtain ⟨⟨h1, h2, _⟩, h3⟩ := normalize_shape ds
  refine ⟨by rw [h1]; exact h.count, ?_, ?_⟩
  · intro hn
    rw [h1]
    rcases h3 with h3 | ⟨b, b', _, h4, _⟩
    · exact h.unloaded (by rw [← h3, hn])
    · rw [hn] at h4
      cases h4
  · intro c hc
    rw [h1, h2]
    rcases h3 with h3 | ⟨b, b', h3, h4, h5⟩
    · exact h.loaded c (by rw [← h3, hc])
    · rw [hc] at h4
      cases h4
      have := h.loaded b h3
      simp only [len] at *
      omega

theorem PAA_readable (junk : α) (n : Int) {ds : Dataset α} (h : ds.Readable) :
    (ds.PAA junk n).2.Readable := by
  unfold Dataset.PAA
  split
  · exact h
  · dsimp only
    split
    · exact h
    · rename_i hneg
      split
      · rename_i nb hrun
        have hl : nb.length = (ds.itemCount * calcPAALength ds.itemLength n).toNat := by
          have := forInt_inv (fun x : List α => x.length = (ds.itemCount * calcPAALength ds.itemLength n).toNat)
            (by
              intro i s s' hs e
              obtain ⟨b, _, e⟩ := Res.bind_eq_ok.mp e
              rw [doPAA_length e, hs]) (by simp) hrun
          exact this
        refine ⟨h.count, (fun hn => by cases hn), ?_⟩
        rintro b ⟨⟩
        simp only [len, hl]
        omega
      · exact h
      · exact h

theorem clear_readable (ds : Dataset α) : ds.clear.Readable :=
  ⟨le_refl _, fun _ => rfl, fun _ h => by cases h⟩

theorem empty_readable : (Dataset.empty : Dataset α).Readable :=
  ⟨le_refl _, fun _ => rfl, fun _ h => by cases h⟩

end Onex
