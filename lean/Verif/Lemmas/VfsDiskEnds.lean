import Verif.Lemmas.VfsDiskRound
import Verif.Spec.VfsDiskEnds

/-!
# Lemmas about disk archives: mounting ends
-/

namespace Verif.Vfs

open Spec.Disk

/-! ## More fuel changes nothing -/

theorem load_more (k : Disk) : ∀ m n, m ≤ n →
    (∀ cs s, (loadEntry k m cs s).2 ≠ .error .hang → loadEntry k n cs s = loadEntry k m cs s) ∧
    (∀ cs s, (loadLoop k m cs s).2 ≠ .error .hang → loadLoop k n cs s = loadLoop k m cs s) := by
  intro m
  induction m with
  | zero => exact fun n _ => ⟨fun cs s h => absurd (by rw [loadEntry]) h, fun cs s h => absurd (by rw [loadLoop]) h⟩
  | succ m ih =>
    intro n hmn
    obtain ⟨n, rfl⟩ : ∃ j, n = j + 1 := ⟨n - 1, by omega⟩
    obtain ⟨ih1, ih2⟩ := ih n (by omega)
    refine ⟨fun cs s h => ?_, fun cs s h => ?_⟩
    · rw [loadEntry] at h ⊢
      rw [loadEntry]
      match hr : readEntry s with
      | .error e => rfl
      | .ok (e, s1) =>
        rw [hr] at h
        dsimp only at h ⊢
        by_cases hd : (e.type &&& 0x80000000 != 0) = true
        · rw [if_pos hd] at h
          rw [if_pos hd, if_pos hd]
          match he : enterDir k e.name cs with
          | (cs1, none) => rfl
          | (cs1, some (.file a b c)) => rfl
          | (cs1, some (.dir a t kids)) =>
            rw [he] at h
            dsimp only at h ⊢
            match hs : Rd.seek (k.catalog + e.offset * 80).toNat .beg s1 with
            | .error x => rfl
            | .ok (_, s2) =>
              rw [hs] at h
              dsimp only at h ⊢
              have h2 := ih2 kids s2
              match hl : loadLoop k m kids s2 with
              | (kids', .error x) =>
                rw [hl] at h h2
                rw [h2 (fun hx => h (by cases hx; rfl))]
              | (kids', .ok s3) =>
                rw [hl] at h2
                rw [h2 (by simp)]
        · rw [if_neg hd, if_neg hd]
    · rw [loadLoop] at h ⊢
      rw [loadLoop]
      have h1 := ih1 cs s
      match hl : loadEntry k m cs s with
      | (cs1, .error e) =>
        rw [hl] at h h1
        rw [h1 (fun hx => h (by cases hx; rfl))]
      | (cs1, .ok (true, s1)) =>
        rw [hl] at h1
        rw [h1 (by simp)]
      | (cs1, .ok (false, s1)) =>
        rw [hl] at h h1
        rw [h1 (by simp)]
        exact ih2 cs1 s1 h

theorem mountDisk_more (unixTime : BitVec 32 → Int) {m n : Nat} (hmn : m ≤ n) (buf : Bytes) (o : Overwrite) (root : Node)
    (h : (mountDisk unixTime m buf o root).2 ≠ .error .hang) :
    mountDisk unixTime n buf o root = mountDisk unixTime m buf o root := by
  unfold mountDisk at h ⊢
  match hr : readDiskHeader ⟨buf, 0⟩ with
  | .error e => rfl
  | .ok ((catalog, dos, zipped), s) =>
    rw [hr] at h
    cases root with
    | file a b c => rfl
    | dir a t cs =>
      dsimp only at h ⊢
      match hs : Rd.seek catalog.toNat .beg s with
      | .error e => rfl
      | .ok (_, s1) =>
        rw [hs] at h
        dsimp only at h ⊢
        rw [(load_more _ m n hmn).2 cs s1]
        intro hx
        rw [hx] at h
        exact h rfl

/-! ## Images in order -/

theorem padded_in (buf : Bytes) (p k : Nat) (h : p + k ≤ buf.length) :
    Rd.readPadded k ⟨buf, p⟩ = .ok ((buf.drop p).take k, ⟨buf, p + k⟩) := by
  unfold Rd.readPadded Rd.read
  simp only
  rw [if_neg (by omega)]
  have : k - ((buf.drop p).take k).length = 0 := by simp; omega
  rw [this]
  simp

theorem u32_in (buf : Bytes) (p : Nat) (h : p + 4 ≤ buf.length) : Rd.u32 ⟨buf, p⟩ = .ok (wordAt buf p, ⟨buf, p + 4⟩) := by
  unfold Rd.u32 Rd.word
  rw [Rd.bind_ok (padded_in buf p 4 h)]
  rfl

theorem readEntry_in (buf : Bytes) (p : Nat) (h : p + 80 ≤ buf.length) :
    ∃ name size, readEntry ⟨buf, p⟩ = .ok (⟨name, wordAt buf (p + 64), size, wordAt buf (p + 72)⟩, ⟨buf, p + 80⟩) := by
  refine ⟨entryName ((buf.drop p).take 64), wordAt buf (p + 68), ?_⟩
  unfold readEntry Rd.string
  rw [Rd.bind_ok (padded_in buf p 64 (by omega)), Rd.bind_ok (u32_in buf (p + 64) (by omega)),
    Rd.bind_ok (u32_in buf (p + 68) (by omega)), Rd.bind_ok (u32_in buf (p + 72) (by omega)),
    Rd.bind_ok (u32_in buf (p + 76) (by omega))]
  rfl

theorem header_in (buf : Bytes) (h : 296 ≤ buf.length) {c d : BitVec 32} {z : Bool} {s : Rs}
    (hr : readDiskHeader ⟨buf, 0⟩ = .ok ((c, d, z), s)) : c = catalogOf buf ∧ s.data = buf := by
  unfold readDiskHeader Rd.string at hr
  rw [Rd.bind_ok (padded_in buf 0 256 (by omega)), Rd.bind_ok (padded_in buf 256 16 (by omega)),
    Rd.bind_ok (u32_in buf 272 (by omega)), Rd.bind_ok (u32_in buf 276 (by omega)), Rd.bind_ok (u32_in buf 280 (by omega)),
    Rd.bind_ok (u32_in buf 284 (by omega)), Rd.bind_ok (u32_in buf 288 (by omega)), Rd.bind_ok (u32_in buf 292 (by omega))] at hr
  split at hr
  · cases hr
    refine ⟨?_, rfl⟩
    unfold catalogOf
    by_cases h0 : wordAt buf 288 = 0
    · rw [if_pos h0, if_pos (by simp [h0])]; rfl
    · rw [if_neg h0, if_neg (by simp; exact h0)]
  · cases hr

theorem load_ends (k : Disk) (P : Nat → Prop) (hP : Ordered k.buf P) (hc : k.catalog = catalogOf k.buf) : ∀ fuel,
    (∀ cs p, P p → 2 * (k.buf.length - p) ≤ fuel → (loadEntry k fuel cs ⟨k.buf, p⟩).2 ≠ .error .hang ∧
      ∀ cs' b s, loadEntry k fuel cs ⟨k.buf, p⟩ = (cs', .ok (b, s)) → s = ⟨k.buf, p + 80⟩ ∧ (b = false → ¬ isLast k.buf p)) ∧
    (∀ cs p, P p → 2 * (k.buf.length - p) + 1 ≤ fuel → (loadLoop k fuel cs ⟨k.buf, p⟩).2 ≠ .error .hang ∧
      ∀ cs' s, loadLoop k fuel cs ⟨k.buf, p⟩ = (cs', .ok s) → s.data = k.buf) := by
  intro fuel
  induction fuel with
  | zero =>
    refine ⟨fun cs p hp h => ?_, fun cs p hp h => ?_⟩
    · have := (hP p hp).1; omega
    · omega
  | succ fuel ih =>
    obtain ⟨ih1, ih2⟩ := ih
    refine ⟨fun cs p hp h => ?_, fun cs p hp h => ?_⟩
    · obtain ⟨hin, hnext, hdir⟩ := hP p hp
      obtain ⟨name, size, hr⟩ := readEntry_in k.buf p hin
      have hlast : ∀ b : Bool, b = (wordAt k.buf (p + 72) &&& 0x40000000 != 0) → b = false → ¬ isLast k.buf p := by
        intro b hb hf hl
        unfold isLast at hl
        rw [hf] at hb
        simp at hb
        exact hl hb
      rw [loadEntry, hr]
      dsimp only
      by_cases hd : (wordAt k.buf (p + 72) &&& 0x80000000 != 0) = true
      · rw [if_pos hd]
        obtain ⟨hlt, hPq⟩ := hdir (by unfold isDirectory; simpa using hd)
        have hq : (k.catalog + wordAt k.buf (p + 64) * 80).toNat = entriesOf k.buf p := by unfold entriesOf; rw [hc]
        match he : enterDir k name cs with
        | (cs1, none) =>
          refine ⟨by simp, fun cs' b s hx => ?_⟩
          cases hx
          exact ⟨rfl, hlast _ rfl⟩
        | (cs1, some (.file a b c)) => exact ⟨by simp, fun cs' b s hx => by cases hx⟩
        | (cs1, some (.dir a t kids)) =>
          dsimp only
          have hqin := (hP _ hPq).1
          rw [hq, Rd.seek_beg (pos := p + 80) (t := entriesOf k.buf p) (by omega)]
          dsimp only
          obtain ⟨h2, h3⟩ := ih2 kids (entriesOf k.buf p) hPq (by omega)
          match hl : loadLoop k fuel kids ⟨k.buf, entriesOf k.buf p⟩ with
          | (kids', .error x) =>
            rw [hl] at h2
            exact ⟨fun hx => h2 (by cases hx; rfl), fun cs' b s hx => by cases hx⟩
          | (kids', .ok s3) =>
            have h3 := h3 kids' s3 hl
            obtain ⟨d3, p3⟩ := s3
            obtain rfl := h3
            dsimp only
            rw [Rd.seek_beg (pos := p3) (t := p + 80) (by omega)]
            refine ⟨by simp, fun cs' b s hx => ?_⟩
            cases hx
            exact ⟨rfl, hlast _ rfl⟩
      · rw [if_neg hd]
        refine ⟨by simp, fun cs' b s hx => ?_⟩
        cases hx
        exact ⟨rfl, hlast _ rfl⟩
    · obtain ⟨hin, hnext, hdir⟩ := hP p hp
      obtain ⟨h1, h2⟩ := ih1 cs p hp (by omega)
      rw [loadLoop]
      match hl : loadEntry k fuel cs ⟨k.buf, p⟩ with
      | (cs1, .error e) =>
        rw [hl] at h1
        exact ⟨fun hx => h1 (by cases hx; rfl), fun cs' s hx => by cases hx⟩
      | (cs1, .ok (true, s1)) =>
        obtain ⟨rfl, _⟩ := h2 _ _ _ hl
        exact ⟨by simp, fun cs' s hx => by cases hx; rfl⟩
      | (cs1, .ok (false, s1)) =>
        obtain ⟨rfl, hb⟩ := h2 _ _ _ hl
        exact ih2 cs1 (p + 80) (hnext (hb rfl)) (by omega)

theorem header_comes (buf : Bytes) (h : 296 ≤ buf.length) : readDiskHeader ⟨buf, 0⟩ ≠ .error .hang := by
  unfold readDiskHeader Rd.string
  rw [Rd.bind_ok (padded_in buf 0 256 (by omega)), Rd.bind_ok (padded_in buf 256 16 (by omega)),
    Rd.bind_ok (u32_in buf 272 (by omega)), Rd.bind_ok (u32_in buf 276 (by omega)), Rd.bind_ok (u32_in buf 280 (by omega)),
    Rd.bind_ok (u32_in buf 284 (by omega)), Rd.bind_ok (u32_in buf 288 (by omega)), Rd.bind_ok (u32_in buf 292 (by omega))]
  split
  · intro hx; cases hx
  · intro hx; cases hx

/-- A catalog of files of which none is the last one, up to the end of the image. -/
theorem loadLoop_cut (k : Disk) (n : Nat) : ∀ p, p + 80 * n = k.buf.length →
    (∀ i, i < n → ¬ isDirectory k.buf (p + 80 * i) ∧ ¬ isLast k.buf (p + 80 * i)) →
    ∀ fuel cs, (loadLoop k fuel cs ⟨k.buf, p⟩).2 = .error .hang := by
  induction n with
  | zero =>
    intro p hp _ fuel cs
    rw [show p = k.buf.length by omega, loadLoop_end k k.buf fuel cs]
  | succ n ih =>
    intro p hp hno fuel cs
    cases fuel with
    | zero => rw [loadLoop]
    | succ fuel =>
      rw [loadLoop]
      cases fuel with
      | zero => rw [loadEntry]
      | succ fuel =>
        obtain ⟨name, size, hr⟩ := readEntry_in k.buf p (by omega)
        obtain ⟨h1, h2⟩ := hno 0 (by omega)
        unfold isDirectory isLast at *
        simp only [Nat.mul_zero, Nat.add_zero, ne_eq, Classical.not_not] at h1 h2
        rw [loadEntry, hr]
        dsimp only
        rw [if_neg (by simp; exact h1), show (wordAt k.buf (p + 72) &&& 0x40000000 != 0) = false by simp; exact h2]
        dsimp only
        exact ih (p + 80) (by omega) (fun i hi => by
          have := hno (i + 1) (by omega)
          rw [show p + 80 * (i + 1) = p + 80 + 80 * i by omega] at this
          exact this) _ _

end Verif.Vfs
