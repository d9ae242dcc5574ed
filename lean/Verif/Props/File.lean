import Verif.Model.File
import Verif.Props.BinCross

/-! # C98: several numbers in one file, with a crash at any byte -/

namespace AesiMP
open Aeu

/-- Specification: the bytes a record occupies in the file, `byteOf`/`byteIndex` as in C33. -/
def Rec.bytes (host : Host) (r : Rec) : List (BitVec 8) :=
  (List.range (4 * r.blocks)).map fun p => BitVec.ofNat 8 (byteOf (toNat r.value) (byteIndex host r.bigEndian r.blocks p))

/-- Specification: the whole file. -/
def file (host : Host) (recs : List Rec) : List (BitVec 8) := recs.flatMap (Rec.bytes host)

/-- Precision and flag of a record. -/
def Rec.shape (r : Rec) : Nat × Bool := (r.blocks, r.bigEndian)

@[simp] theorem Rec.bytes_length (host : Host) (r : Rec) : (r.bytes host).length = 4 * r.blocks := by
  simp [Rec.bytes]

theorem Rec.bytes_eq (host : Host) (r : Rec) {l : List (BitVec 8)} (hl : l.length = 4 * r.blocks)
    (h : ∀ p, p < 4 * r.blocks → (l.getD p 0).toNat = byteOf (toNat r.value) (byteIndex host r.bigEndian r.blocks p)) :
    l = r.bytes host := by
  refine List.ext_getElem (by simp [hl]) fun p hp _ => ?_
  have hb : byteOf (toNat r.value) (byteIndex host r.bigEndian r.blocks p) < 2 ^ 8 := Nat.mod_lt _ (by norm_num)
  have := h p (by omega)
  simp only [List.getD, List.getElem?_eq_getElem hp, Option.getD_some] at this
  apply BitVec.eq_of_toNat_eq
  rw [this]
  simp only [Rec.bytes, List.getElem_map, List.getElem_range, BitVec.toNat_ofNat]
  rw [Nat.mod_eq_of_lt hb]

theorem Rec.ext_bytes (host : Host) {r s : Rec} (hs : r.shape = s.shape) (h : r.bytes host = s.bytes host) : r = s := by
  obtain ⟨n, be, a⟩ := r
  obtain ⟨m, be', b⟩ := s
  simp only [Rec.shape, Prod.mk.injEq] at hs
  obtain ⟨rfl, rfl⟩ := hs
  congr 1
  apply toNat_inj
  refine eq_of_bytes (k := 4 * n) ?_ ?_ ?_
  · rw [← Nat.mul_assoc]; exact toNat_lt a
  · rw [← Nat.mul_assoc]; exact toNat_lt b
  · intro q hq
    obtain ⟨p, hp, rfl⟩ := byteIndex_surj host be hq
    have h1 := congrArg (fun l => (l.getD p 0).toNat) h
    simp only [Rec.bytes, List.getD, List.getElem?_map, List.getElem?_range hp, Option.map_some, Option.getD_some,
      BitVec.toNat_ofNat] at h1
    have hb : ∀ v k, byteOf v k < 2 ^ 8 := fun v k => Nat.mod_lt _ (by norm_num)
    rwa [Nat.mod_eq_of_lt (hb _ _), Nat.mod_eq_of_lt (hb _ _)] at h1

theorem writeAll_failed (host : Host) (recs : List Rec) (os : BSink) (hf : os.fail = true) :
    writeAll host recs os = .ok os := by
  induction recs with
  | nil => rfl
  | cons r rs ih => rw [writeAll, C33_write_failed host _ _ _ hf, ok_bind, ih]

/-- C98: a stream that breaks after `room` bytes holds the first `room` bytes of the file, whatever numbers, of
whatever precisions, are written; it is left failed exactly if they did not all fit. -/
theorem C98_write (host : Host) (recs : List Rec) (before : List (BitVec 8)) (room : Nat) :
    Sat (writeAll host recs ⟨before, room, false⟩) fun w =>
      w.out = before ++ (file host recs).take room ∧ (w.fail = true ↔ room < (file host recs).length) := by
  induction recs generalizing before room with
  | nil => exact Sat.ok ⟨by simp [file], by simp [file]⟩
  | cons r rs ih =>
    have himg : written host r.bigEndian r.value r.blocks = r.bytes host :=
      r.bytes_eq host (written_length _ _ _ _) fun p hp => written_byte host r.bigEndian r.value hp
    rw [writeAll]
    refine Sat.bind (writeBinary_room host r.value ⟨before, room, false⟩ rfl r.bigEndian) ?_
    rintro ⟨out, room', fail⟩ ⟨h1, h2, h3⟩
    simp only [himg] at h1 h2 h3
    have hlen : (file host (r :: rs)).length = 4 * r.blocks + (file host rs).length := by
      simp [file]
    cases fail with
    | true =>
      rw [writeAll_failed host rs _ rfl]
      have := h2.mp rfl
      refine Sat.ok ⟨?_, ?_⟩
      · simp only [h1, file, List.flatMap_cons]
        rw [List.take_append_of_le_length (by simp; omega)]
      · simp only [true_iff]; omega
    | false =>
      have hle : 4 * r.blocks ≤ room := by
        by_contra hc
        exact absurd (h2.mpr (by omega)) (by simp)
      refine (ih out room').mono ?_
      rintro w ⟨h4, h5⟩
      have hr : room' = room - 4 * r.blocks := by first | exact h3 hle | exact h3 rfl | exact h3
      refine ⟨?_, ?_⟩
      · rw [h4, h1, hr]
        simp only [file, List.flatMap_cons]
        rw [List.take_of_length_le (l := r.bytes host) (by simp; omega), List.append_assoc, List.take_append]
        rw [List.take_of_length_le (l := r.bytes host) (by simp; omega)]
        simp
      · rw [h5, hr, hlen]; omega

/-- C98: reading any bytes into objects of any precisions: the objects hold the bytes of the stream in order,
zeros where the stream was too short; the rest of the stream is untouched; it fails exactly if it was too short. -/
theorem C98_read (host : Host) (olds : List Rec) (data : List (BitVec 8)) :
    Sat (readAll host olds ⟨data, false⟩) fun r =>
      r.1.map Rec.shape = olds.map Rec.shape ∧
      file host r.1 = data.take (file host olds).length ++
        List.replicate ((file host olds).length - data.length) 0#8 ∧
      r.2.data = data.drop (file host olds).length ∧
      (r.2.fail = true ↔ data.length < (file host olds).length) := by
  suffices H : ∀ (olds : List Rec) (data : List (BitVec 8)) (fl : Bool), (fl = true → data = []) →
      Sat (readAll host olds ⟨data, fl⟩) fun r =>
        r.1.map Rec.shape = olds.map Rec.shape ∧
        file host r.1 = data.take (file host olds).length ++
          List.replicate ((file host olds).length - data.length) 0#8 ∧
        r.2.data = data.drop (file host olds).length ∧
        (r.2.fail = true ↔ fl = true ∨ data.length < (file host olds).length) by
    simpa using H olds data false (by simp)
  intro olds
  induction olds with
  | nil => intro data fl hfl; exact Sat.ok ⟨rfl, by simp [file], by simp [file], by simp [file]⟩
  | cons r rs ih =>
    intro data fl hfl
    have hlen : (file host (r :: rs)).length = 4 * r.blocks + (file host rs).length := by
      simp [file]
    have hone : Sat (readBinary host r.value ⟨data, fl⟩ r.bigEndian) fun x =>
        Rec.bytes host ⟨r.blocks, r.bigEndian, x.1⟩ = data.take (4 * r.blocks) ++
          List.replicate (4 * r.blocks - data.length) 0#8 ∧ x.2.data = data.drop (4 * r.blocks) ∧
        (x.2.fail = true ↔ fl = true ∨ data.length < 4 * r.blocks) := by
      cases fl with
      | false =>
        refine (C33_read host r.value r.bigEndian data).mono ?_
        rintro ⟨x, st⟩ ⟨h1, h2, h3⟩
        refine ⟨(Rec.bytes_eq host ⟨r.blocks, r.bigEndian, x⟩ ?_ fun p hp => ?_).symm, h2, by simpa using h3⟩
        · simp; omega
        · rw [h1 p hp]
          simp only at hp
          by_cases hd : p < data.length
          · simp [List.getD, List.getElem?_append, hd, hp]
          · simp [List.getD, List.getElem?_append, List.getElem?_replicate, hd, hp]
            split <;> rfl
      | true =>
        obtain rfl := hfl rfl
        refine (C33_read_failed host r.value r.bigEndian []).mono ?_
        rintro ⟨x, st⟩ ⟨h1, h2⟩
        simp only at h1 h2
        subst h2
        refine ⟨(Rec.bytes_eq host ⟨r.blocks, r.bigEndian, x⟩ (by simp) fun p hp => ?_).symm, by simp, by simp⟩
        simp [h1, byteOf, List.getD, List.getElem?_replicate]
        split <;> rfl
    rw [readAll]
    refine Sat.bind hone ?_
    rintro ⟨x, d', fl'⟩ ⟨h1, h2, h3⟩
    simp only at h1 h2 h3
    subst h2
    refine Sat.bind (ih (data.drop (4 * r.blocks)) fl' fun h => ?_) ?_
    · rcases h3.mp h with h | h
      · rw [hfl h]; simp
      · exact List.drop_eq_nil_of_le (by omega)
    rintro ⟨ys, st⟩ ⟨h4, h5, h6, h7⟩
    simp only at h4 h5 h6 h7
    refine Sat.ok ⟨?_, ?_, ?_, ?_⟩
    · simp [h4, Rec.shape]
    · have e : file host (⟨r.blocks, r.bigEndian, x⟩ :: ys) = Rec.bytes host ⟨r.blocks, r.bigEndian, x⟩ ++ file host ys := by
        simp [file]
      rw [e, h1, h5, hlen, List.take_add, List.length_drop]
      by_cases hd : data.length < 4 * r.blocks
      · rw [List.drop_eq_nil_of_le (by omega : data.length ≤ 4 * r.blocks)]
        simp only [List.take_nil, List.nil_append, List.append_nil, List.append_assoc]
        rw [List.replicate_append_replicate]
        congr 2; omega
      · rw [show 4 * r.blocks - data.length = 0 by omega, List.replicate_zero, List.append_nil, List.append_assoc]
        congr 3; omega
    · rw [h6, List.drop_drop, hlen]
    · rw [h7, h3, hlen, List.length_drop]
      constructor
      · rintro ((h | h) | h)
        · exact Or.inl h
        · right; omega
        · right; omega
      · rintro (h | h)
        · exact Or.inl (Or.inl h)
        · by_cases hd : data.length < 4 * r.blocks
          · exact Or.inl (Or.inr hd)
          · right; omega

theorem file_inj (host : Host) {rs ss : List Rec} (hs : rs.map Rec.shape = ss.map Rec.shape)
    (h : file host rs = file host ss) : rs = ss := by
  induction rs generalizing ss with
  | nil => cases ss with
    | nil => rfl
    | cons _ _ => simp at hs
  | cons r rs ih => cases ss with
    | nil => simp at hs
    | cons s ss =>
      simp only [List.map_cons, List.cons.injEq] at hs
      simp only [file, List.flatMap_cons] at h
      have hl : (r.bytes host).length = (s.bytes host).length := by
        have := congrArg Prod.fst hs.1
        simp only [Rec.shape] at this
        simp [this]
      obtain ⟨h1, h2⟩ := List.append_inj h hl
      rw [Rec.ext_bytes host hs.1 h1, ih hs.2 h2]

theorem file_length (host : Host) {rs ss : List Rec} (hs : rs.map Rec.shape = ss.map Rec.shape) :
    (file host rs).length = (file host ss).length := by
  have : ∀ l : List Rec, (file host l).length = ((l.map Rec.shape).map fun q => 4 * q.1).sum := by
    intro l
    induction l with
    | nil => rfl
    | cons r l ih => simp only [file, List.flatMap_cons, List.length_append, Rec.bytes_length] at ih ⊢; simp [ih, Rec.shape]
  rw [this, this, hs]

/-- C98, crash at any byte: numbers written one after another to a stream that breaks after `room` bytes and read
back into objects of the same precisions (holding anything before): the numbers that were written completely are
restored; the bytes of the others that got through are in their places and everything else is zero. -/
theorem C98_round_trip (host : Host) (recs olds : List Rec) (hs : olds.map Rec.shape = recs.map Rec.shape)
    (room : Nat) :
    Sat (writeAll host recs ⟨[], room, false⟩) fun w => Sat (readAll host olds ⟨w.out, false⟩) fun r =>
      r.1.map Rec.shape = recs.map Rec.shape ∧
      (∀ k, (file host (recs.take k)).length ≤ room → r.1.take k = recs.take k) ∧
      file host r.1 = (file host recs).take room ++ List.replicate ((file host recs).length - room) 0#8 ∧
      (r.2.fail = true ↔ room < (file host recs).length) := by
  refine (C98_write host recs [] room).mono ?_
  rintro w ⟨hw, -⟩
  rw [List.nil_append] at hw
  refine (C98_read host olds w.out).mono ?_
  rintro ⟨rs, st⟩ ⟨h1, h2, -, h4⟩
  simp only at h1 h2 h4
  have hl := file_length host hs
  rw [hl] at h2 h4
  have h2' : file host rs = (file host recs).take room ++ List.replicate ((file host recs).length - room) 0#8 := by
    rw [h2, hw, List.length_take, List.take_take]
    congr 1
    · by_cases h : room ≤ (file host recs).length
      · rw [Nat.min_eq_right h]
      · rw [Nat.min_eq_left (by omega), List.take_of_length_le (le_refl _), List.take_of_length_le (by omega)]
    · congr 1; omega
  refine ⟨h1.trans hs, fun k hk => ?_, h2', ?_⟩
  · have hk1 : (rs.take k).map Rec.shape = (recs.take k).map Rec.shape := by
      rw [List.map_take, List.map_take, h1, hs]
    refine file_inj host hk1 ?_
    have hpre : ∀ l : List Rec, file host (l.take k) = (file host l).take (file host (l.take k)).length := by
      intro l
      conv_rhs => rw [show file host l = file host (l.take k) ++ file host (l.drop k) by
        unfold file; rw [← List.flatMap_append, List.take_append_drop]]
      rw [List.take_left']
      rfl
    rw [hpre rs, hpre recs, file_length host hk1, h2']
    have hle : (file host (recs.take k)).length ≤ (file host recs).length := by
      rw [hpre recs]; simp
    rw [List.take_append_of_le_length (by rw [List.length_take]; omega), List.take_take, Nat.min_eq_left hk]
  · rw [h4, hw, List.length_take]; omega

/-- Two numbers of different precisions, the second interrupted after three of its bytes. -/
example : (do
    let w ← writeAll .little [⟨1, false, ofNat 1 5⟩, ⟨2, false, ofNat 2 0x0807060504030201⟩] ⟨[], 7, false⟩
    let r ← readAll .little [⟨1, false, ofNat 1 9⟩, ⟨2, false, ofNat 2 9⟩] ⟨w.out, false⟩
    Except.ok (r.1.map (fun x => toNat x.value), r.2.fail) : Exec (List Nat × Bool)) = .ok ([5, 0x030201], true) := by
  decide +kernel

end AesiMP
