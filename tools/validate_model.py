"""Run the model (compiled, not kernel-checked) on the literal assertions of the project test suite and README.
Usage: python3 tools/validate_model.py && cd lean && lake env lean /tmp/aesi_validate.lean
"""
import re
out=["""import Verif.Model.Text
import Verif.Model.Aesi
import Verif.Props.Text
open AesiMP
namespace VV
def codes (s : String) : List Int := s.toList.map fun c => (c.toNat : Int)
def lit (n : Nat) (s : String) (t : List Int := [0]) : Exec (Aeu n) :=
  let l := codes s ++ t
  Aeu.ofChars .char asciiAlnum n (⟨l.toArray, rfl⟩ : Vector Int l.toArray.size)
def slit (n : Nat) (s : String) (t : List Int := [0]) : Exec (Aesi n) :=
  let l := codes s ++ t
  Aesi.ofChars .char asciiAlnum n (⟨l.toArray, rfl⟩ : Vector Int l.toArray.size)
def cfg : Cfg := ⟨false,false,false⟩
def checks : List (String × Exec Bool) := [
"""]
cs=[]
def add(name,e): cs.append(f'  ("{name}", {e})')
t=open('/repo/test/boolean/boolean.cpp').read()
decl={}
for line in t.split('\n'):
    m=re.match(r'\s*(Aeu|Aesi)\s*<\s*(\d+)\s*>\s*(w\d+)\s*=\s*"([^"]*)"',line)
    if m: decl[m[3]]=(m[1],int(m[2])//32,m[4])
    for m in re.finditer(r'EXPECT_EQ\((w\d+) (>=|<=|==|>|<) (w\d+), (true|false)\)',line):
        a,op,b,r=m.groups()
        A=decl[a];B=decl[b]
        if A[0]=='Aeu':
            f={'>':'gt','<':'lt','==':'eq','<=':'le','>=':'ge'}[op]
            add(f"{a}{op}{b}",f'(do let x ← lit {A[1]} "{A[2]}"; let y ← lit {B[1]} "{B[2]}"; let r ← Aeu.{f} cfg x y; .ok (r == {r}))')
        else:
            f={'>':'c == .greater','<':'c == .less','==':'c == .equal','<=':'c != .greater','>=':'c != .less'}[op]
            if op=='==':
              add(f"s{a}{op}{b}",f'(do let x ← slit {A[1]} "{A[2]}"; let y ← slit {B[1]} "{B[2]}"; let r ← Aesi.eqAcross cfg x y; .ok (r == {r}))')
            else:
              add(f"s{a}{op}{b}",f'(do let x ← slit {A[1]} "{A[2]}"; let y ← slit {B[1]} "{B[2]}"; let c ← Aesi.compareToAcross cfg x y; .ok (({f}) == {r}))')
t=open('/repo/test/operations/casts/precision_cast.cpp').read()
for line in t.split('\n'):
    m=re.match(r'\s*(Aeu|Aesi)\s*<\s*(\d+)\s*>\s*(l\d+)\s*=\s*"([^"]*)"',line)
    if m: decl[m[3]]=(m[1],int(m[2])//32,m[4])
    m=re.match(r'\s*EXPECT_EQ\((l\d+)\.precisionCast<(\d+)>\(\), "([^"]*)"\)',line)
    if m:
        A=decl[m[1]]; k=int(m[2])//32
        if A[0]=='Aeu': add("pc"+m[1],f'(do let x ← lit {A[1]} "{A[2]}"; let y ← lit {k} "{m[3]}"; let z ← Aeu.precisionCast cfg {k} x; Aeu.eq cfg z y)')
        else: add("spc"+m[1],f'(do let x ← slit {A[1]} "{A[2]}"; let y ← slit {k} "{m[3]}"; let z ← Aesi.precisionCast cfg {k} x; Aesi.eq cfg z y)')
t=open('/repo/test/operations/initialization/initialization.cpp').read()
for m in re.finditer(r'(Aeu)(\d+) (.*?);',t):
    for q in re.finditer(r'(\w+) = L?"([^"]*)"(sv|s)?',m[3]): decl[q[1]]=(int(m[2])//32,q[2],q[3])
for line in t.split('\n'):
    for m in re.finditer(r'EXPECT_EQ\((\w+), (\d+)u\)',line):
        if m[1] in decl and len(decl[m[1]])==3 and isinstance(decl[m[1]][0],int):
            n,s,k=decl[m[1]]
            add("init "+m[1],f'(do let x ← lit {n} "{s}" {"[]" if k else "[0]"}; Aeu.eqU64 x {m[2]}#64)')
    for m in re.finditer(r'EXPECT_EQ\(Aesi(\d+)\("([^"]*)"(sv|s)?\), (-?\d+)\)',line):
        add("sinit "+m[2],f'(do let x ← slit {int(m[1])//32} "{m[2]}" {"[]" if m[3] else "[0]"}; Aesi.eqIntegral x ({m[4]}))')
for i in range(20):
    s='-'*(i+2)+'1'
    add("dash"+str(i),f'(do let x ← slit 4 "{s}" []; Aesi.eqIntegral x ({1 if i%2==0 else -1}))')
add("readme1",'''(do let b ← lit 4 "10888869450418352160768000001"; let p ← lit 3 "99990001"; let m ← lit 8 "8683317618811886495518194401279999999"; let b ← Aeu.precisionCast cfg 8 b; let p ← Aeu.precisionCast cfg 8 p; let r ← Aeu.powm cfg b p m; let e ← lit 8 "6680141832773294447513292887050873529"; Aeu.eq cfg r e)''')
add("readme2",'''(do let a ← lit 4 "127958277599458332250117"; let b ← lit 6 "279256103987149586783914830"; let a ← Aeu.precisionCast cfg 6 a; let r ← Aeu.mul a b; let e ← lit 6 "35733130075330889632933652650476631619495985535110"; Aeu.eq cfg r e)''')
add("readme3",'''(do let b ← lit 4 "340199290171201906239764863559915798527"; let p ← lit 4 "340282366920937859000464800151540596704"; let m ← lit 4 "338953138925230918806032648491249958912"; let b ← Aeu.precisionCast cfg 8 b; let m ← Aeu.precisionCast cfg 8 m; let r ← Aeu.powmT cfg b p m; let e ← lit 8 "201007033690655614485250957754150944769"; Aeu.eq cfg r e)''')
add("fact",'''(do let f ← Aeu.ofUnsigned 16 (1#32); let f ← (List.range 49).foldlM (fun f i => Aeu.mulNarrow f (BitVec.ofNat 32 (i+2))) f; let e ← lit 16 "0x49eebc961ed279b02b1ef4f28d19a84f5973a1d2c7800000000000"; let os ← Aeu.streamOut cfg 173 ⟨.hex, true, false, .unset, 32, 0, []⟩ f; let q ← Aeu.eq cfg f e; .ok (q && os.out == codes "0x49eebc961ed279b02b1ef4f28d19a84f5973a1d2c7800000000000"))''')
add("inc",'''(do let f ← lit 16 "0x0000_0000'0000_0000'0000_0000'FFFF_FFFF'FFFF_FFFF'FFFF_FFFF"; let e ← lit 16 "0x00_01'0000_0000'0000_0000'0000_0000";let g ← Aeu.inc f; Aeu.eq cfg g e)''')
out.append(",\n".join(cs)+"]\n")
out.append('''#eval show IO Unit from do
  let mut bad := 0
  for (nm, e) in checks do
    match e with
    | Except.ok true => pure ()
    | Except.ok false => bad := bad + 1; IO.println s!"FALSE {nm}"
    | Except.error x => bad := bad + 1; IO.println s!"ERR {nm} {repr x}"
  IO.println s!"{checks.length} checks, {bad} bad"
end VV''')
open('/tmp/aesi_validate.lean','w').write("\n".join(out))
print(len(cs))
