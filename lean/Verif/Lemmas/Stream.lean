import Verif.Lemmas.Print

/-!
# `operator<<` prints the canonical numeral
-/

namespace AesiMP
open Aeu
variable {n cap : Nat}

/-- The radix selected by the stream. -/
def BaseField.radix : BaseField → Nat
  | .hex => 16 | .oct => 8 | .other => 10

/-- The prefix `operator<<` prints. -/
def streamPrefix (os : OStream) : List Int :=
  if os.showbase then (match os.basefield with
    | .hex => [48, 120] | .oct => [48, 111] | .other => []) else []

namespace Aeu

theorem put_width_zero (os : OStream) (h : os.width = 0) (item : List Int) :
    (os.put item).out = os.out ++ item ∧ (os.put item).width = 0 ∧
    (os.put item).uppercase = os.uppercase := by
  unfold OStream.put
  simp only [h, Nat.zero_sub, List.replicate_zero, List.append_nil, List.nil_append, ite_self, and_self]

theorem put_padded (os : OStream) (v : Block) :
    (({ os with fill := 48, width := 8, adjust := .right } : OStream).putHex v).out =
      os.out ++ hexText8 os.uppercase v ∧
    (({ os with fill := 48, width := 8, adjust := .right } : OStream).putHex v).width = 0 ∧
    (({ os with fill := 48, width := 8, adjust := .right } : OStream).putHex v).uppercase =
      os.uppercase := by
  refine ⟨?_, rfl, rfl⟩
  simp only [OStream.putHex, OStream.put, hexText8, reduceCtorEq, if_false]

/-- The stream after the prefix. -/
theorem stream_prefix (os : OStream) (h : os.width = 0) :
    (streamHead os).out = os.out ++ streamPrefix os ∧ (streamHead os).width = 0 ∧
      (streamHead os).uppercase = os.uppercase := by
  have hp := fun t => put_width_zero os h t
  unfold streamPrefix streamHead streamBase
  cases hbf : os.basefield <;> cases hsb : os.showbase <;> simp [OStream.putText, hp, h]

theorem streamOut_zero (cfg : Cfg) (bufSize : Nat) (os : OStream) (hw : os.width = 0) (x : Aeu n)
    (hx : toNat x = 0) :
    Sat (streamOut cfg bufSize os x) fun r => r.out = os.out ++ streamPrefix os ++ [48] ∧ r.width = 0 := by
  unfold streamOut
  obtain ⟨h2, h3, h4⟩ := stream_prefix os hw
  simp only [isZero_spec, hx, decide_true, ok_bind, if_true, sat_ok]
  have := put_width_zero (streamHead os) h3 [48]
  exact ⟨by rw [OStream.putText, this.1, h2], this.2.1⟩

theorem streamOut_hex (cfg : Cfg) (bufSize : Nat) (os : OStream) (hw : os.width = 0)
    (hbf : os.basefield = .hex) (hn : 0 < n) (x : Aeu n) (hx : toNat x ≠ 0) :
    Sat (streamOut cfg bufSize os x) fun r =>
      r.out = os.out ++ streamPrefix os ++ numeral os.uppercase 16 (toNat x) ∧ r.width = 0 := by
  unfold streamOut streamHex
  obtain ⟨h2, h3, h4⟩ := stream_prefix os hw
  generalize streamHead os = os1 at h2 h3 h4 ⊢
  simp only [hbf, streamBase, isZero_spec, hx, decide_false, ok_bind, Bool.false_eq_true, if_false, if_true]
  refine Sat.bind (scan_top hn x hx) ?_
  rintro l ⟨hl, hd0, hdiv⟩
  have hlen := hex_prefix os.uppercase x hx hl hd0 hdiv
  simp only [rd_ok hl, ok_bind]
  refine Sat.forDown (fun i (r : OStream) => r.width = 0 ∧ r.uppercase = os.uppercase ∧
      r.out = os.out ++ streamPrefix os ++ numeral os.uppercase 16 (toNat x / 2 ^ (32 * i)))
    (Nat.zero_le _) ?_ ?_ ?_
  · have := put_width_zero os1 h3 (hexText os1.uppercase x[l])
    refine ⟨this.2.1, by rw [OStream.putHex, this.2.2, h4], ?_⟩
    rw [OStream.putHex, this.1, h2, h4, hexText, hdiv, dig_of_lt hl]
  · rintro i r _ hi ⟨hr1, hr2, hr3⟩
    have hin : i < n := by omega
    simp only [rd_ok hin, ok_bind, sat_ok]
    obtain ⟨hp1, hp2, hp3⟩ := put_padded r x[i]
    refine ⟨hp2, by rw [hp3, hr2], ?_⟩
    rw [hp1, hr3, hr2, div_block_step x i, dig_of_lt hin, numeral_block _ _ (hlen (i + 1) (by omega)).1]
    simp only [List.append_assoc]
  · rintro r ⟨hr1, hr2, hr3⟩
    simp only [Nat.mul_zero, Nat.pow_zero, Nat.div_one] at hr3
    exact ⟨hr3, hr1⟩

/-- Printing a buffer from its end. -/
theorem printLoop_spec (buf : Vector Int cap) (text : List Int) (hfit : text.length ≤ cap)
    (hbuf : ∀ j (h : j < cap), j < text.length → buf[j] = text.getD j 0) (os : OStream)
    (hw : os.width = 0) :
    Sat (forDown text.length 0 os fun i os => do
        let c ← rd buf i
        .ok (os.putText [c])) fun r => r.out = os.out ++ text.reverse ∧ r.width = 0 := by
  refine Sat.forDown (fun i (r : OStream) => r.width = 0 ∧ r.out = os.out ++ (text.drop i).reverse)
    (Nat.zero_le _) ⟨hw, by simp⟩ ?_ ?_
  · rintro i r _ hi ⟨h1, h2⟩
    have hic : i < cap := by omega
    simp only [rd_ok hic, ok_bind, sat_ok]
    have := put_width_zero r h1 [buf[i]]
    refine ⟨this.2.1, ?_⟩
    rw [OStream.putText, this.1, h2, hbuf i hic hi, List.drop_eq_getElem_cons hi, List.reverse_cons,
      List.append_assoc]
    simp [List.getD, hi]
  · rintro r ⟨h1, h2⟩
    exact ⟨by simpa using h2, h1⟩

/-- Decimal and octal: the digits that fit the internal buffer, i.e. the lowest ones. -/
theorem streamOut_digits (cfg : Cfg) (bufSize : Nat) (os : OStream) (hw : os.width = 0)
    (hbf : os.basefield ≠ .hex) (hn : 2 ≤ n) (x : Aeu n) (hx : toNat x ≠ 0) :
    Sat (streamOut cfg bufSize os x) fun r => r.width = 0 ∧ r.out = os.out ++ streamPrefix os ++
      (lowDigits os.basefield.radix (toNat x)
        (min (Nat.digits os.basefield.radix (toNat x)).length bufSize)).reverse := by
  obtain ⟨base, hbase⟩ : ∃ base : BitVec 32, streamBase os.basefield = base := ⟨_, rfl⟩
  have hr : base.toNat = os.basefield.radix ∧ base ≠ 16#32 ∧ 1 < base.toNat ∧ base.toNat ≤ 256 := by
    cases h : os.basefield with
    | hex => exact absurd h hbf
    | oct => rw [h] at hbase; subst hbase; decide
    | other => rw [h] at hbase; subst hbase; decide
  obtain ⟨h2, h3, h4⟩ := stream_prefix os hw
  unfold streamOut
  simp only [hbase, isZero_spec, hx, decide_false, ok_bind, Bool.false_eq_true, if_false, hr.2.1]
  generalize streamHead os = os1 at h2 h3 h4 ⊢
  unfold streamDigits
  refine Sat.bind (digitsLoop_spec cfg hn (by norm_num) base hr.2.2.1 hr.2.2.2 x
    (Vector.replicate bufSize 0) 0 (Nat.zero_le _)) ?_
  rintro ⟨buf, filled⟩ ⟨k, hk, hf, hfill⟩
  simp only [Nat.zero_add, Nat.sub_zero] at hk hf hfill ⊢
  have := printLoop_spec buf (lowDigits base.toNat (toNat x) k) (by rw [lowDigits_length]; omega)
    (by
      intro j hj hjl
      rw [hfill j hj, if_pos (by omega)]
      simp) os1 h3
  rw [lowDigits_length, ← hf] at this
  refine Sat.mono this ?_
  rintro r ⟨ho, hw'⟩
  refine ⟨hw', ?_⟩
  rw [ho, h2, ← hr.1, hf, hk]

end Aeu
end AesiMP
