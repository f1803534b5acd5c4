/-!
# Specification of base64 (RFC 4648, section 4)
-/

namespace Verif.Text

/-- The base64 alphabet, Table 1 of RFC 4648, as ASCII codes. -/
def digit (k : Nat) : UInt8 :=
  UInt8.ofNat (if k < 26 then 65 + k else if k < 52 then 97 + (k - 26) else if k < 62 then 48 + (k - 52) else if k = 62 then 43 else 47)

/-- The encoding: each group of three bytes is a number of 24 bits, written with four digits in base 64; an incomplete group is extended with
zero bits to a whole number of digits and padded with `=` (ASCII 61). -/
def base64 : List UInt8 → List UInt8
  | [] => []
  | [a] =>
    let n := a.toNat * 16
    [digit (n / 64), digit (n % 64), 61, 61]
  | [a, b] =>
    let n := (a.toNat * 256 + b.toNat) * 4
    [digit (n / 64 / 64), digit (n / 64 % 64), digit (n % 64), 61]
  | a :: b :: c :: r =>
    let n := (a.toNat * 256 + b.toNat) * 256 + c.toNat
    digit (n / 64 / 64 / 64) :: digit (n / 64 / 64 % 64) :: digit (n / 64 % 64) :: digit (n % 64) :: base64 r

end Verif.Text
