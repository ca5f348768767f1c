import Verif.Model.Net
import Verif.Model.Int64
import Verif.Model.Config

/-!
# The parameters of the HTTP server

net/http/http.go `Search` and net/http/dist.go `WgDist`: how a search is made of the values of a form. `strconv.Atoi` and
`strconv.Itoa` are modelled as the Go library has them (64-bit `int`). The parsing of the URL and the body into values and
the HTTP connection are not modelled; the JSON of the answer is in `Model/Json`.
-/

namespace Riot.Net

open Riot

/-- `req.Form`, `url.Values`: the values of each name, in order. -/
abbrev Form := Str → List Str

/-- `strconv.ParseUint(s, 10, 64)` on digits: a syntax error is `none`; a number that is too large gives the largest one,
at once. -/
def parseDigits : Nat → Str → Option Nat
  | acc, [] => some acc
  | acc, b :: bs =>
    if 48 ≤ b.val ∧ b.val ≤ 57 then
      if 2 ^ 64 ≤ 10 * acc + (b.val - 48) then some (2 ^ 64 - 1) else parseDigits (10 * acc + (b.val - 48)) bs
    else none

/-- The value of `strconv.Atoi`, whose error is ignored: 0 for what is no number, the nearest `int` for what is too
large. -/
def atoi (s : Str) : Int :=
  match s with
  | [] => 0
  | b :: bs =>
    if b = 45 then
      if bs = [] then 0 else - ((min ((parseDigits 0 bs).getD 0) (2 ^ 63) : Nat) : Int)
    else if b = 43 then
      if bs = [] then 0 else ((min ((parseDigits 0 bs).getD 0) (2 ^ 63 - 1) : Nat) : Int)
    else ((min ((parseDigits 0 (b :: bs)).getD 0) (2 ^ 63 - 1) : Nat) : Int)

/-- `strconv.Itoa` -/
def itoaInt (n : Int) : Str := if n < 0 then 45 :: itoa n.natAbs else itoa n.natAbs

/-- net/http/http.go:64-81: the first value of a name, if there is one. -/
def Form.first (f : Form) (name : Str) : Str := (f name).head?.getD []

/-- net/http/http.go:54-130 `Search`: the texts of the answer. `userid` and `time` are not used. -/
def httpSearch {F : Type} (gs : GSort) (conf : Conf) (search : SearchReq F → Option (SearchResp F AttriVal)) (f : Form) :
    Option (List Text) :=
  serverSearch gs conf search (f.first (str "query"))
    (if f (str "outputOffset") = [] then 0 else atoi (f.first (str "outputOffset")))
    (if f (str "maxOutputs") = [] then 0 else atoi (f.first (str "maxOutputs"))) none {}

/-- net/http/dist.go:57-75: the form that `WgDist` sends to the servers. `q` are the values in its own URL (`Get` gives the
first value of a name or ""); `param.Set` sets a single value. -/
def distForm (conf : Conf) (q : Form) : Form := fun name =>
  if name = str "userid" then [q.first (str "userid")]
  else if name = str "query" then [q.first (str "query")]
  else if name = str "outputOffset" then
    [if atoi (q.first (str "maxOutputs")) = 0 then itoaInt conf.outputOffset else q.first (str "outputOffset")]
  else if name = str "maxOutputs" then
    [if atoi (q.first (str "maxOutputs")) = 0 then itoaInt conf.maxOutputs else q.first (str "maxOutputs")]
  else if name = str "time" then [q.first (str "time")]
  else []

end Riot.Net
