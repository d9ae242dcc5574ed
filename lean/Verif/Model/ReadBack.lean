import Verif.Model.Aesi

/-!
# Clients: a number printed into a character array and constructed from it again

`getString` (Aeu.h:1281-1364, Aesi.h:1061-1105) followed by one of the constructors from text (Aeu.h:185-260,
Aesi.h:122-145), in the three ways C++ programs do it.
-/

namespace AesiMP
namespace Client
variable {n cap : Nat}

/-- The first `count` characters of an array; more than there are is an access out of bounds. -/
def firstChars (buffer : Vector Int cap) (count : Nat) : Exec (List Int) :=
  if count ≤ cap then .ok (buffer.toList.take count) else .error .outOfBounds

/-- The C string in an array: the characters before the first zero; without one, `strlen` runs out of bounds. -/
def cString (buffer : Vector Int cap) : Exec (List Int) :=
  if (0 : Int) ∈ buffer.toList then .ok (buffer.toList.takeWhile (· ≠ 0)) else .error .outOfBounds

/-- `Aeu<32m>(buffer, a.getString<base, upper>(buffer, cap, showBase))`. -/
def readCount (cfg : Cfg) (kind : CharKind) (alnum : Int → Bool) (base : BitVec 8) (upper : Bool) (a : Aeu n)
    (buffer : Vector Int cap) (showBase : Bool) (m : Nat) : Exec (Aeu m) := do
  let r ← Aeu.getString cfg kind base upper a buffer showBase
  let text ← firstChars r.1 r.2
  Aeu.ofChars kind alnum m ⟨text.toArray, rfl⟩

/-- `a.getString<base, upper>(buffer, cap, showBase); Aeu<32m>(std::string(buffer))`. -/
def readCString (cfg : Cfg) (kind : CharKind) (alnum : Int → Bool) (base : BitVec 8) (upper : Bool) (a : Aeu n)
    (buffer : Vector Int cap) (showBase : Bool) (m : Nat) : Exec (Aeu m) := do
  let r ← Aeu.getString cfg kind base upper a buffer showBase
  let text ← cString r.1
  Aeu.ofChars kind alnum m ⟨text.toArray, rfl⟩

/-- `a.getString<base, upper>(buffer, cap, showBase); Aeu<32m>(buffer)` where `buffer` is an array: the constructor for
string literals takes all of it. -/
def readArray (cfg : Cfg) (kind : CharKind) (alnum : Int → Bool) (base : BitVec 8) (upper : Bool) (a : Aeu n)
    (buffer : Vector Int cap) (showBase : Bool) (m : Nat) : Exec (Aeu m) := do
  let r ← Aeu.getString cfg kind base upper a buffer showBase
  Aeu.ofChars kind alnum m ⟨r.1.toList.toArray, rfl⟩

/-- `Aesi<32m>(buffer, a.getString<base, upper>(buffer, cap, showBase))`. -/
def readCountS (cfg : Cfg) (kind : CharKind) (alnum : Int → Bool) (base : BitVec 8) (upper : Bool) (a : Aesi n)
    (buffer : Vector Int cap) (showBase : Bool) (m : Nat) : Exec (Aesi m) := do
  let r ← Aesi.getString cfg kind base upper a buffer showBase
  let text ← firstChars r.1 r.2
  Aesi.ofChars kind alnum m ⟨text.toArray, rfl⟩

/-- `a.getString<base, upper>(buffer, cap, showBase); Aesi<32m>(std::string(buffer))`. -/
def readCStringS (cfg : Cfg) (kind : CharKind) (alnum : Int → Bool) (base : BitVec 8) (upper : Bool) (a : Aesi n)
    (buffer : Vector Int cap) (showBase : Bool) (m : Nat) : Exec (Aesi m) := do
  let r ← Aesi.getString cfg kind base upper a buffer showBase
  let text ← cString r.1
  Aesi.ofChars kind alnum m ⟨text.toArray, rfl⟩

/-- `a.getString<base, upper>(buffer, cap, showBase); Aesi<32m>(buffer)` where `buffer` is an array. -/
def readArrayS (cfg : Cfg) (kind : CharKind) (alnum : Int → Bool) (base : BitVec 8) (upper : Bool) (a : Aesi n)
    (buffer : Vector Int cap) (showBase : Bool) (m : Nat) : Exec (Aesi m) := do
  let r ← Aesi.getString cfg kind base upper a buffer showBase
  Aesi.ofChars kind alnum m ⟨r.1.toList.toArray, rfl⟩

end Client
end AesiMP
