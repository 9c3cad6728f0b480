import Verif.Model.Argv
import Verif.Spec.Main
import Verif.Spec.Client
/-!
# Writing command lines, after POSIX (Utility Syntax Guidelines) and the manuals
-/

namespace Ladvd.Spec

/-- The letters of a program: those that stand alone and those that take an argument. -/
structure Letters where
  flags : List Char
  valued : List Char

/-- The daemon's, /repo/doc/ladvd.8.in. -/
def daemonLetters : Letters :=
  ⟨['a', 'd', 'f', 'h', 'n', 'o', 'r', 's', 'q', 't', 'v', 'w', 'y', 'z', 'L', 'C', 'E', 'F', 'N'], ['e', 'm', 'u', 'c', 'l']⟩

/-- The client's, /repo/doc/ladvdc.8.in. -/
def clientLetters : Letters := ⟨['L', 'C', 'E', 'F', 'N', 'b', 'd', 'f', 'o', 'v', 'h'], ['p']⟩

/-- A letter as it is typed. -/
def letter (c : Char) : UInt8 := UInt8.ofNat c.toNat

/-- A word that is not an option: it does not begin with a dash, or is just a dash. -/
def IsOperand (w : Bytes) : Prop := w.head? ≠ some 0x2d ∨ w = lit "-"

/-- The command line `ws` means these options with these operands.  Letters without argument may be grouped, the last one of a group may take an argument,
in the same word or the next one; `--` ends the options.  With `anywhere`, operands may precede options; otherwise the first operand ends them. -/
inductive Written (L : Letters) (anywhere : Bool) : List Bytes → List Opt → List Bytes → Prop
  | none : Written L anywhere [] [] []
  | flags (cs : List Char) (hn : cs ≠ []) (hc : ∀ c ∈ cs, c ∈ L.flags) {ws os args} (h : Written L anywhere ws os args) :
      Written L anywhere ((0x2d :: cs.map letter) :: ws) (cs.map (fun c => ⟨c, []⟩) ++ os) args
  | attached (cs : List Char) (hc : ∀ c ∈ cs, c ∈ L.flags) (c : Char) (hv : c ∈ L.valued) (v : Bytes) (hn : v ≠ []) {ws os args}
      (h : Written L anywhere ws os args) :
      Written L anywhere ((0x2d :: (cs.map letter ++ letter c :: v)) :: ws) (cs.map (fun c => ⟨c, []⟩) ++ ⟨c, v⟩ :: os) args
  | separate (cs : List Char) (hc : ∀ c ∈ cs, c ∈ L.flags) (c : Char) (hv : c ∈ L.valued) (v : Bytes) {ws os args}
      (h : Written L anywhere ws os args) :
      Written L anywhere ((0x2d :: (cs.map letter ++ [letter c])) :: v :: ws) (cs.map (fun c => ⟨c, []⟩) ++ ⟨c, v⟩ :: os) args
  | operand (w : Bytes) (hw : IsOperand w) (hp : anywhere = true) {ws os args} (h : Written L anywhere ws os args) :
      Written L anywhere (w :: ws) os (w :: args)
  | rest (w : Bytes) (hw : IsOperand w) (hp : anywhere = false) (ws : List Bytes) : Written L anywhere (w :: ws) [] (w :: ws)
  | stop (ws : List Bytes) : Written L anywhere (lit "--" :: ws) [] ws

/-- What the help of the daemon describes: letter, argument, text. -/
def daemonHelp : List (Char × Bytes × Bytes) :=
  [('a', [], lit "Auto-enable protocols based on received packets"), ('d', [], lit "Dump pcap-compatible packets to stdout"),
   ('e', lit "interface", lit "Exclude this interface"), ('f', [], lit "Run in the foreground"), ('h', [], lit "Print this message"),
   ('m', lit "interface", lit "Management interface"), ('n', [], lit "Use addresses of mgmt interface for all interfaces"),
   ('o', [], lit "Run Once"), ('q', [], lit "Generate per-interface chassis-id values"), ('r', [], lit "Receive Packets"),
   ('s', [], lit "Silent, don't transmit packets"), ('t', [], lit "Use Tun/Tap interfaces"),
   ('u', lit "user", lit "Setuid User (defaults to ladvd)"), ('v', [], lit "Increase logging verbosity"),
   ('w', [], lit "Use wireless interfaces"), ('z', [], lit "Save received info in interface description / alias"),
   ('c', lit "CC", lit "System Country Code"), ('l', lit "location", lit "System Location"), ('L', [], lit "Enable LLDP"),
   ('C', [], lit "Enable CDP"), ('E', [], lit "Enable EDP"), ('F', [], lit "Enable FDP"), ('N', [], lit "Enable NDP")]

/-- One line of it. -/
def daemonHelpLine (x : Char × Bytes × Bytes) : Bytes :=
  lit "\t-" ++ [letter x.1] ++ (if x.2.1 = [] then [] else lit " <" ++ x.2.1 ++ lit ">") ++ lit " = " ++ x.2.2 ++ lit "\n"

/-- The help of the daemon. -/
def daemonHelpText (prog : Bytes) : Bytes :=
  lit "ladvd version 1.1.3\nUsage: " ++ prog ++ lit " [-a] [INTERFACE] [INTERFACE]\n" ++ daemonHelp.flatMap daemonHelpLine

/-- A command line the daemon can work with: every option is acceptable, and a protocol or auto-detection is requested. -/
def Acceptable (h : Host) (os : List Opt) : Prop := (∀ o ∈ os, ValidOpt h o) ∧ given os ['a', 'L', 'C', 'E', 'F', 'N']

/-- What the user sees on the terminal. -/
def onTerminal (l : List LogOut) : Bytes := l.flatMap (fun x => match x with | .stderr t => t | .syslog .. => [])

/-- The exit status the shell sees, `none` as long as the command runs: once `daemon` has succeeded (its first call, /repo/src/main.c line 221) the process
that was started has exited with status 0, whatever happens to the other one. -/
def shellStatus (deny : Nat → Option Nat) (o : Opts) (e : End) : Option Nat :=
  if o.testBit 0 = true ∧ deny 0 = none then some 0
  else match e with | .running => none | .exited c => some c | .crashed => some 139

end Ladvd.Spec
