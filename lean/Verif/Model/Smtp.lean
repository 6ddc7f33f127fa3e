import Verif.Model.IPAddr

/-!
# Mails about bans — `config/action.d/smtp.py` (27-240)

Simplifications: calls of `smtplib` are events with arbitrary results (`Net`). `MIMEText`, `formataddr` and the header lines From, To and Date are left out, a mail is
its subject and text; `as_string` may raise. Messages to the log are left out. Values of the ban are a lookup (`none` is an exception); that changes of
`aInfo` do not reach other actions is C100. `gethostname` does not raise.
-/

namespace Verif.Smtp

open Verif Verif.IPAddr

/-- A value of a dictionary -/
inductive Val where
  | text (s : Str)
  | int (n : Int)
deriving DecidableEq

/-- `bool(value)` -/
def Val.truthy : Val → Bool
  | .text s => !s.isEmpty
  | .int n => n ≠ 0

/-- `str(n)` -/
def decInt : Int → Str
  | .ofNat n => dec n
  | .negSucc n => '-' :: dec (n + 1)

/-! ## `template % values` -/

/-- Where in a template -/
inductive At where
  | lit
  /-- behind `%` -/
  | percent
  /-- inside the brackets, reversed -/
  | name (acc : Str)
  /-- behind the brackets -/
  | conv (name : Str)

/-- `%` of Python for `%(name)s`, `%(name)i` and `%%`; `none` is an exception -/
def fmt (v : Str → Option Val) : At → Str → Option Str
  | .lit, [] => some []
  | .lit, '%' :: l => fmt v .percent l
  | .lit, c :: l => (fmt v .lit l).map (c :: ·)
  | .percent, '(' :: l => fmt v (.name []) l
  | .percent, '%' :: l => (fmt v .lit l).map ('%' :: ·)
  | .name acc, ')' :: l => fmt v (.conv acc.reverse) l
  | .name acc, c :: l => fmt v (.name (c :: acc)) l
  | .conv n, 's' :: l =>
    match v n with
    | some (.text s) => (fmt v .lit l).map (s ++ ·)
    | some (.int i) => (fmt v .lit l).map (decInt i ++ ·)
    | none => none
  | .conv n, 'i' :: l =>
    match v n with
    | some (.int i) => (fmt v .lit l).map (decInt i ++ ·)
    | _ => none
  | _, _ => none

/-! ## Messages (27-69) -/

def startText : Str := "Hi,\n\nThe jail %(jailname)s has been started successfully.\n\nRegards,\nFail2Ban".toList
def stopText : Str := "Hi,\n\nThe jail %(jailname)s has been stopped.\n\nRegards,\nFail2Ban".toList

/-- `messages['ban']` -/
def banTexts : List (Str × Str) :=
  [("head".toList, "Hi,\n\nThe IP %(ip)s has just been banned for %(bantime)i seconds\nby Fail2Ban after %(failures)i attempts against %(jailname)s.\n".toList),
   ("tail".toList, "\nRegards,\nFail2Ban".toList),
   ("matches".toList, "\nMatches for this ban:\n%(matches)s\n".toList),
   ("ipmatches".toList, "\nMatches for %(ip)s:\n%(ipmatches)s\n".toList),
   ("ipjailmatches".toList, "\nMatches for %(ip)s for jail %(jailname)s:\n%(ipjailmatches)s\n".toList)]

def startSubject : Str := "[Fail2Ban] %(jailname)s: started on %(hostname)s".toList
def stopSubject : Str := "[Fail2Ban] %(jailname)s: stopped on %(hostname)s".toList
def banSubject : Str := "[Fail2Ban] %(jailname)s: banned %(ip)s from %(hostname)s".toList

/-- The text of a ban before values are put in (230-234) -/
def banText (kind : Option Str) : Str :=
  (banTexts.lookup "head".toList).getD [] ++ (kind.bind (fun k => banTexts.lookup k)).getD [] ++ (banTexts.lookup "tail".toList).getD []

/-! ## Sending (134-200) -/

/-- Settings of the action -/
structure Cfg where
  host : Str := "localhost".toList
  ssl : Val := .int 0
  user : Option Str := none
  password : Option Str := none
  sender : Str := "fail2ban".toList
  dest : Str := "root".toList
  kind : Option Str := none

/-- What may be raised -/
inductive Exc where
  /-- wrong host, or a template without its value -/
  | value
  /-- "Failed to starttls()" -/
  | tls
  /-- `SMTPServerDisconnected` -/
  | disconnected
  | other (n : Nat)
deriving DecidableEq

/-- Calls of the library -/
inductive Ev where
  /-- `smtplib.SMTP(host, port)`, which connects -/
  | make (host port : Str)
  /-- `smtp.connect(host, port)`, again -/
  | connect (host port : Str)
  | starttls
  | login (user password : Str)
  | mail (sender : Str) (to : List Str) (subject text : Str)
  | quit
deriving DecidableEq

/-- Results of these calls; `none` is success -/
structure Net where
  make : Option Exc
  connect : Option Exc
  /-- code, or an exception -/
  starttls : Except Exc Int
  login : Option Exc
  /-- `msg.as_string()` -/
  render : Str → Str → Option Exc
  mail : Option Exc
  quit : Option Exc

/-- `toaddr.split(", ")` -/
def recipients : Str → List Str
  | [] => [[]]
  | ',' :: ' ' :: l => [] :: recipients l
  | c :: l =>
    match recipients l with
    | [] => [[c]]
    | a :: r => (c :: a) :: r

/-- 174-175 -/
def post (n : Net) (c : Cfg) (subject text : Str) : List Ev × Option Exc :=
  match n.render subject text with
  | some e => ([], some e)
  | none => ([.mail c.sender (recipients c.dest) subject text], n.mail)

/-- 172-175 -/
def authPost (n : Net) (c : Cfg) (subject text : Str) : List Ev × Option Exc :=
  match c.user, c.password with
  | some u, some p =>
    if u.isEmpty || p.isEmpty then post n c subject text
    else
      match n.login with
      | some e => ([.login u p], some e)
      | none => let r := post n c subject text; (.login u p :: r.1, r.2)
  | _, _ => post n c subject text

/-- 167-175 -/
def tlsPost (n : Net) (c : Cfg) (subject text : Str) : List Ev × Option Exc :=
  if c.ssl.truthy then
    match n.starttls with
    | .error e => ([.starttls], some e)
    | .ok code =>
      if code ≠ 220 then ([.starttls], some .tls)
      else let r := authPost n c subject text; (.starttls :: r.1, r.2)
  else authPost n c subject text

/-- 163-175 -/
def session (n : Net) (c : Cfg) (h p subject text : Str) : List Ev × Option Exc :=
  match n.connect with
  | some e => ([.connect h p], some e)
  | none => let r := tlsPost n c subject text; (.connect h p :: r.1, r.2)

/-- `finally` (195-200): an exception of `quit` replaces an earlier one, unless it is `SMTPServerDisconnected` -/
def finish (n : Net) (e : Option Exc) : Option Exc :=
  match n.quit with
  | none => e
  | some .disconnected => e
  | some q => some q

/-- `_sendMessage(subject, text)` (134-200) -/
def send (n : Net) (c : Cfg) (subject text : Str) : List Ev × Option Exc :=
  match splitOn ':' c.host with
  | [h, p] =>
    match n.make with
    | some e => ([.make h p], some e)
    | none => let r := session n c h p subject text; (.make h p :: (r.1 ++ [.quit]), finish n r.2)
  | _ => ([], some .value)

/-! ## The action (202-238) -/

/-- Values already called in `message_values` (125-129); it is never reset -/
structure Memo where
  hostname : Option Str := none
  bantime : Option Int := none
deriving DecidableEq

/-- What happens around a call -/
structure World where
  net : Net
  /-- `socket.gethostname()` -/
  hostname : Str
  /-- `jail.actions.getBanTime()` -/
  bantime : Int

/-- `message_values` for start and stop: jail and host are asked for -/
def own (jail : Str) (host : Str) (k : Str) : Option Val :=
  if k = "jailname".toList then some (.text jail) else if k = "hostname".toList then some (.text host) else none

/-- `aInfo.update(self.message_values)` (229) -/
def updated (jail : Str) (host : Str) (bantime : Int) (info : Str → Option Val) (k : Str) : Option Val :=
  if k = "jailname".toList then some (.text jail) else if k = "hostname".toList then some (.text host)
  else if k = "bantime".toList then some (.int bantime) else info k

/-- Format both texts, then send -/
def compose (n : Net) (c : Cfg) (v : Str → Option Val) (subject text : Str) : List Ev × Option Exc :=
  match fmt v .lit subject, fmt v .lit text with
  | some s, some t => send n c s t
  | _, _ => ([], some .value)

inductive Call where
  | start
  | stop
  | ban (info : Str → Option Val)

/-- `start`, `stop` and `ban` -/
def call (jail : Str) (m : Memo) (w : World) (c : Cfg) : Call → Memo × List Ev × Option Exc
  | .start => let h := m.hostname.getD w.hostname; ({ m with hostname := some h }, compose w.net c (own jail h) startSubject startText)
  | .stop => let h := m.hostname.getD w.hostname; ({ m with hostname := some h }, compose w.net c (own jail h) stopSubject stopText)
  | .ban info =>
    if ((info "restored".toList).map Val.truthy).getD false then (m, [], none)
    else
      let h := m.hostname.getD w.hostname
      let b := m.bantime.getD w.bantime
      (⟨some h, some b⟩, compose w.net c (updated jail h b info) banSubject (banText c.kind))

/-- All calls of one action; settings may change in between -/
def calls (jail : Str) (m : Memo) : List (World × Cfg × Call) → List (List Ev × Option Exc)
  | [] => []
  | (w, c, x) :: l => let r := call jail m w c x; r.2 :: calls jail r.1 l

end Verif.Smtp
