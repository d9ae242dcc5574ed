import Verif.Model.Transfer
import Verif.Props.BinIO
import Verif.Props.Access

/-!
# C112: numbers carried between machines
-/

namespace AesiMP
open Client Aeu
variable {n : Nat}

/-- Which byte of the original number byte `q` of the number read is: the blocks are in reverse order if the flags differ,
the bytes of each block if the machines do. -/
def carried (n : Nat) (sameHost sameFlag : Bool) (q : Nat) : Nat :=
  4 * (if sameFlag then q / 4 else n - 1 - q / 4) + (if sameHost then q % 4 else 3 - q % 4)

/-- C112: what arrives, for all machines and flags: byte by byte, and the file is used up without a failure. -/
theorem C112_transfer (host1 host2 : Host) (flag1 flag2 : Bool) (a old : Aeu n) :
    Sat (transfer host1 flag1 host2 flag2 a old) fun r =>
      (∀ q, q < 4 * n → byteOf (toNat r.1) q = byteOf (toNat a) (carried n (host1 == host2) (flag1 == flag2) q)) ∧
      r.2 = ⟨[], false⟩ := by
  unfold transfer
  obtain ⟨image, hlen, hbytes, hw⟩ := C33_write_prefix host1 flag1 a []
  obtain ⟨w, hw1, hw2, -⟩ := hw (4 * n)
  rw [hw1]
  simp only [bind, Except.bind]
  have hout : w.out = image := by rw [hw2, ← hlen, List.take_length]; rfl
  refine Sat.mono (C33_read host2 old flag2 w.out) ?_
  rintro ⟨x, st⟩ ⟨h1, h2, h3⟩
  simp only at h1 h2 h3
  refine ⟨fun q hq => ?_, ?_⟩
  · obtain ⟨p, hp, rfl⟩ := byteIndex_surj host2 flag2 hq
    rw [h1 p hp, hout, hbytes p hp]
    congr 1
    unfold byteIndex carried
    cases host1 <;> cases host2 <;> cases flag1 <;> cases flag2 <;> simp <;> omega
  · have hf : st.fail = false := by
      cases h : st.fail with
      | false => rfl
      | true => have := h3.1 h; rw [hout] at this; omega
    obtain ⟨d, f⟩ := st
    simp only at hf h2 ⊢
    rw [hf, h2, hout, ← hlen, List.drop_length]

private def lp64' : Cfg := ⟨false, true, false⟩

private theorem bytes_eq {x y : Aeu n} (h : ∀ q, q < 4 * n → byteOf (toNat x) q = byteOf (toNat y) q) : x = y := by
  apply toNat_inj
  refine eq_of_bytes (k := 4 * n) ?_ ?_ h
  · rw [← Nat.mul_assoc]; exact toNat_lt x
  · rw [← Nat.mul_assoc]; exact toNat_lt y

/-- C112: between machines of the same byte order, with the same flag, the number arrives (partial: between machines of
different byte order it is false, C112_counterexample). -/
theorem C112_same_order_partial (host : Host) (flag : Bool) (a old : Aeu n) :
    transfer host flag host flag a old = .ok (a, ⟨[], false⟩) := by
  obtain ⟨⟨x, st⟩, hr, h1, h2⟩ := C112_transfer host host flag flag a old
  rw [hr]
  simp only at h1 h2
  rw [h2, bytes_eq (x := x) (y := a) fun q hq => ?_]
  rw [h1 q hq]
  congr 1
  simp [carried]
  omega

/-- C112: exactly which numbers arrive between machines of different byte order: those whose blocks read the same
forwards and backwards. -/
theorem C112_other_order_iff (host1 host2 : Host) (hne : host1 ≠ host2) (flag : Bool) (a old : Aeu n) :
    (transfer host1 flag host2 flag a old).map (·.1) = .ok a ↔
      ∀ i, i < n → ∀ k, k < 4 → byteOf (toNat a) (4 * i + k) = byteOf (toNat a) (4 * i + (3 - k)) := by
  obtain ⟨⟨x, st⟩, hr, h1, h2⟩ := C112_transfer host1 host2 flag flag a old
  rw [hr]
  simp only [Except.map, Except.ok.injEq]
  have hb : (host1 == host2) = false := by simpa using hne
  rw [hb] at h1
  constructor
  · rintro rfl i hi k hk
    have := h1 (4 * i + k) (by omega)
    rw [this]
    congr 1
    simp [carried]
    omega
  · intro h
    refine bytes_eq fun q hq => ?_
    rw [h1 q hq]
    have := h (q / 4) (by omega) (q % 4) (by omega)
    rw [show 4 * (q / 4) + q % 4 = q by omega] at this
    rw [this]
    simp [carried]

/-- C112: 1 never arrives at a machine of another byte order with the same flag: it becomes 2^24, in every precision. -/
theorem C112_one_lost (hn : 0 < n) (host1 host2 : Host) (hne : host1 ≠ host2) (flag : Bool) (old : Aeu n) :
    Sat (transfer host1 flag host2 flag (ofNat n 1) old) fun r => toNat r.1 = 2 ^ 24 := by
  refine Sat.mono (C112_transfer host1 host2 flag flag (ofNat n 1) old) ?_
  rintro ⟨x, st⟩ ⟨h1, -⟩
  have hb : (host1 == host2) = false := by simpa using hne
  rw [hb] at h1
  have h1' : toNat (ofNat n 1) = 1 := by
    rw [toNat_ofNat]
    exact Nat.mod_eq_of_lt (Nat.one_lt_two_pow (by omega))
  rw [h1'] at h1
  refine eq_of_bytes (k := 4 * n) ?_ ?_ fun q hq => ?_
  · rw [← Nat.mul_assoc]; exact toNat_lt x
  · exact Nat.pow_lt_pow_right (by norm_num) (by omega)
  · rw [h1 q hq]
    simp only [carried, beq_self_eq_true, if_true, Bool.false_eq_true, if_false]
    have key : ∀ q, byteOf 1 q = if q = 0 then 1 else 0 := by
      intro q
      unfold byteOf
      split
      · rename_i h; subst h; rfl
      · rename_i h
        rw [Nat.div_eq_of_lt (Nat.one_lt_pow h (by norm_num))]
    have key2 : byteOf (2 ^ 24) q = if q = 3 then 1 else 0 := by
      unfold byteOf
      rw [show (2 : Nat) ^ 24 = 256 ^ 3 by norm_num]
      rcases Nat.lt_trichotomy q 3 with h | h | h
      · rw [if_neg (by omega)]
        obtain rfl | rfl | rfl : q = 0 ∨ q = 1 ∨ q = 2 := by omega
        all_goals rfl
      · subst h; rfl
      · rw [if_neg (by omega), Nat.div_eq_of_lt (Nat.pow_lt_pow_right (by norm_num) h)]
    rw [key, key2]
    by_cases h : q = 3
    · subst h; rfl
    · rw [if_neg h, if_neg (by omega)]

/-- C112: 1, written on a little-endian machine, is 2^24 on a big-endian one. -/
theorem C112_counterexample (flag : Bool) :
    transfer .little flag .big flag (ofNat 4 1) (ofNat 4 0) = .ok (ofNat 4 (2 ^ 24), ⟨[], false⟩) := by
  cases flag <;> decide +kernel

/-- C112: other machine and other flag at once: all bytes of the number are in reverse order. -/
theorem C112_reversed (host1 host2 : Host) (hne : host1 ≠ host2) (flag : Bool) (a old : Aeu n) :
    Sat (transfer host1 flag host2 (!flag) a old) fun r =>
      ∀ q, q < 4 * n → byteOf (toNat r.1) q = byteOf (toNat a) (4 * n - 1 - q) := by
  refine Sat.mono (C112_transfer host1 host2 flag (!flag) a old) ?_
  rintro r ⟨h1, -⟩ q hq
  have hb : (host1 == host2) = false := by simpa using hne
  have hf : (flag == !flag) = false := by cases flag <;> rfl
  rw [hb, hf] at h1
  rw [h1 q hq]
  congr 1
  simp [carried]
  omega

/-- C112: what was read is restored by sending it back the same way, whatever the machines and flags. -/
theorem C112_there_and_back (host1 host2 : Host) (flag1 flag2 : Bool) (a old1 old2 : Aeu n) :
    (do let r ← transfer host1 flag1 host2 flag2 a old1
        let s ← transfer host2 flag2 host1 flag1 r.1 old2
        .ok s.1 : Exec (Aeu n)) = .ok a := by
  obtain ⟨⟨x, st⟩, hr, h1, -⟩ := C112_transfer host1 host2 flag1 flag2 a old1
  obtain ⟨⟨y, st'⟩, hs, h2, -⟩ := C112_transfer host2 host1 flag2 flag1 x old2
  rw [hr]
  simp only [bind, Except.bind]
  rw [hs]
  refine congrArg Except.ok (bytes_eq fun q hq => ?_)
  simp only at h1 h2
  rw [h2 q hq, h1]
  · congr 1
    unfold carried
    cases host1 <;> cases host2 <;> cases flag1 <;> cases flag2 <;> simp <;> omega
  · unfold carried
    split <;> split <;> omega

/-! ### Byte by byte -/

/-- C112: the bytes a program gets by `getByte`, most significant first, are the same on every machine and in every build;
a number set from them by `setByte` is the number they were taken from, whatever it held before. -/
theorem C112_portable (cfg1 cfg2 : Cfg) (a old : Aeu n) :
    Sat (exportBytes cfg1 a) fun bytes => bytes.length = 4 * n ∧
      (∀ p, p < 4 * n → (bytes.getD p 0).toNat = byteOf (toNat a) (4 * n - 1 - p)) ∧
      importBytes cfg2 old bytes = .ok a := by
  have hexp : Sat (exportBytes cfg1 a) fun bytes => bytes.length = 4 * n ∧
      ∀ p, p < 4 * n → (bytes.getD p 0).toNat = byteOf (toNat a) (4 * n - 1 - p) := by
    unfold exportBytes
    refine Sat.forUp (fun p (bytes : List (BitVec 8)) => bytes.length = p ∧
      ∀ j, j < p → (bytes.getD j 0).toNat = byteOf (toNat a) (4 * n - 1 - j)) (Nat.zero_le _) ⟨rfl, fun j hj => by omega⟩ ?_ (fun _ h => h)
    rintro p bytes - hp ⟨h1, h2⟩
    obtain ⟨b, hb, hv⟩ := getByte_spec cfg1 a (i := 4 * n - 1 - p) (by omega)
    rw [hb]
    refine ⟨_, rfl, by simp [h1], fun j hj => ?_⟩
    rcases Nat.lt_or_ge j p with h | h
    · have := h2 j h
      simp only [List.getD, List.getElem?_append_left (show j < bytes.length by omega)] at this ⊢
      exact this
    · obtain rfl : j = p := by omega
      simp only [List.getD, List.getElem?_append_right (show bytes.length ≤ j by omega), h1, Nat.sub_self]
      simpa [byteOf] using hv
  obtain ⟨bytes, hb, hlen, hval⟩ := hexp
  refine ⟨bytes, hb, hlen, hval, ?_⟩
  have himp : Sat (importBytes cfg2 old bytes) fun r =>
      ∀ q, q < 4 * n → byteOf (toNat r) q = byteOf (toNat a) q := by
    unfold importBytes
    refine Sat.mono (Sat.forUp (fun p (x : Aeu n) => ∀ j, j < p →
      byteOf (toNat x) (4 * n - 1 - j) = byteOf (toNat a) (4 * n - 1 - j)) (Nat.zero_le _) (fun j hj => by omega) ?_ (fun _ h => h)) ?_
    · rintro p x - hp hx
      rw [List.getElem?_eq_getElem (by omega : p < bytes.length)]
      obtain ⟨y, hy, hv⟩ := setByte_spec cfg2 x (i := 4 * n - 1 - p) (bytes[p]'(by omega)) (by omega)
      refine ⟨y, hy, fun j hj => ?_⟩
      have := hv (4 * n - 1 - j)
      unfold byteOf at hx hval ⊢
      rw [this]
      split
      · obtain rfl : j = p := by omega
        have := hval j hp
        simpa [List.getD, List.getElem?_eq_getElem (show j < bytes.length by omega)] using this
      · exact hx j (by omega)
    · intro r hr q hq
      have := hr (4 * n - 1 - q) (by omega)
      rwa [show 4 * n - 1 - (4 * n - 1 - q) = q by omega] at this
  obtain ⟨r, hr, h⟩ := himp
  rw [hr, bytes_eq h]

/-! ### Cases -/

example : transfer .little true .big true (ofNat 2 0x0102030405060708) (ofNat 2 9) =
    .ok (ofNat 2 0x0403020108070605, ⟨[], false⟩) := by decide +kernel
example : transfer .little false .big true (ofNat 2 0x0102030405060708) (ofNat 2 9) =
    .ok (ofNat 2 0x0807060504030201, ⟨[], false⟩) := by decide +kernel
example : transfer .big true .little true (ofNat 2 0x0102020105060605) (ofNat 2 9) =
    .ok (ofNat 2 0x0102020105060605, ⟨[], false⟩) := by decide +kernel
example : exportBytes lp64' (ofNat 2 0x0102030405060708) = .ok [1, 2, 3, 4, 5, 6, 7, 8] := by decide +kernel

end AesiMP
