import Verif.Model.Cli
/-!
# Posting to a web server

`ladvdc -p`, /repo/src/cli.c lines 104-120 and 339-424.  Of libevent, `evhttp_encode_uri` and the handling of requests on one connection are
modelled as documented: requests are sent in the order in which they were made, each after the reply to the one before.
-/

namespace Ladvd

/-- The argument of `-p`, /repo/src/cli.c lines 108-119: `http_host` and `http_path`. -/
def httpTarget (arg : Bytes) : Bytes × Bytes :=
  let a := if arg.take 7 = lit "http://" then arg.drop 7 else arg
  let host := a.takeWhile (· ≠ 0x2f)
  if 0x2f ∈ a then (host, a.drop host.length) else (host, lit "/")

/-- `hostname` after `http_connect`, /repo/src/cli.c lines 357-362: `own` is the result of `gethostname`, `found` that of `gethostbyname`. -/
def httpHostname (own : Bytes) (found : Option Bytes) : Bytes :=
  match found with
  | some n => if n ≠ lit "localhost" then n.take 254 else own
  | none => own

/-- An upper case hexadecimal digit. -/
def hexUpper (n : Nat) : UInt8 := if n < 10 then UInt8.ofNat (48 + n) else UInt8.ofNat (55 + n)

/-- The unreserved characters of libevent: letters, digits and `-._~`. -/
def unreserved (b : UInt8) : Bool :=
  (0x41 ≤ b && b ≤ 0x5a) || (0x61 ≤ b && b ≤ 0x7a) || (0x30 ≤ b && b ≤ 0x39) || b = 0x2d || b = 0x2e || b = 0x5f || b = 0x7e

/-- `evhttp_encode_uri`. -/
def uriEncode : Bytes → Bytes
  | [] => []
  | b :: r => (if unreserved b then [b] else [0x25, hexUpper (b.toNat / 16), hexUpper (b.toNat % 16)]) ++ uriEncode r

/-- A request as handed to libevent: the connection (host and port), method, path, headers, body. -/
structure HttpReq where
  host : Bytes
  port : Nat
  method : Bytes
  path : Bytes
  headers : List (Bytes × Bytes)
  body : Bytes
  deriving Repr, DecidableEq

/-- `http_request`, /repo/src/cli.c lines 365-403.  `target` is the argument of `-p`, `port` the port of the service "http" (lines 344-348), `agent` the
value of `User-Agent`. -/
def httpRequest (target : Bytes × Bytes) (port : Nat) (agent own : Bytes) (s : Shown) : HttpReq where
  host := target.1
  port := port
  method := lit "POST"
  path := target.2
  headers := [(lit "Host", target.1), (lit "User-Agent", agent), (lit "Content-Type", lit "application/x-www-form-urlencoded")]
  body := httpBody uriEncode own s

/-- `http_dispatch`, /repo/src/cli.c lines 416-419: the last request closes the connection. -/
def closeLast : List HttpReq → List HttpReq
  | [] => []
  | [r] => [{ r with headers := r.headers ++ [(lit "Connection", lit "close")] }]
  | r :: rs => r :: closeLast rs

/-- `event_dispatch` with `http_reply`, /repo/src/cli.c lines 405-414 and 421: the requests sent and the exit status.  A reply is `none` if there is none,
otherwise its response code; `my_fatal` ends the program. -/
def httpReplies (server : Nat → Option Nat) : Nat → Nat → List HttpReq → List HttpReq × Nat
  | _, status, [] => ([], status)
  | i, status, r :: rs =>
    match server i with
    | none => ([r], 1)
    | some code =>
      if code = 0 then ([r], 1)
      else
        let x := httpReplies server (i + 1) (if code < 400 then status else 1) rs
        (r :: x.1, x.2)

/-- `ladvdc -p` for the neighbours shown: requests sent and exit status. -/
def httpRun (arg : Bytes) (port : Nat) (agent own : Bytes) (server : Nat → Option Nat) (shown : List Shown) : List HttpReq × Nat :=
  httpReplies server 0 0 (closeLast (shown.map (httpRequest (httpTarget arg) port agent own)))

end Ladvd
