import Verif.EqCmd.Model

/-!
# What a user relies on of the equation commands

An account is kept of what was told: at every region, contact and interface the equations in the order of their creation, each with the texts
given for the options of the command that created it last.
-/

namespace Verif.EqCmd

/-- the three kinds of equations -/
inductive Kind | bulk | contact | interface
deriving DecidableEq

/-- the option that names the place of an equation -/
def Kind.place : Kind → String
  | .bulk => "region"
  | .contact => "contact"
  | .interface => "interface"

/-- the options of the commands `equation`, `contact_equation` and `interface_equation` -/
def Kind.keywords : Kind → List String
  | .bulk => ["device", "region", "name", "variable_name", "variable_update", "node_model", "edge_model", "edge_volume_model", "element_model",
      "volume_node0_model", "volume_node1_model", "time_node_model"]
  | .contact => ["device", "contact", "name", "edge_charge_model", "edge_current_model", "edge_model", "edge_volume_model",
      "element_charge_model", "element_current_model", "element_model", "volume_node0_model", "volume_node1_model", "node_charge_model",
      "node_current_model", "node_model", "circuit_node"]
  | .interface => ["device", "interface", "name", "name0", "name1", "interface_model", "type"]

/-- texts by the name of the option -/
abbrev Dict := String → Option String

/-- the dictionary of a list of pairs -/
def reads (l : List (String × String)) : Dict := fun n => l.lookup n

/-- what is told of an equation created with the texts `g`: all of them; the names of the sides of an interface are the name of the equation if
they are not given -/
def dict (k : Kind) (g : String → String) : Dict := fun n =>
  if n ∈ k.keywords then some (if k = .interface ∧ (n = "name0" ∨ n = "name1") ∧ g n = "" then g "name" else g n) else none

/-- the equations told: at a place (kind, device, region or contact or interface) in the order of their creation -/
abbrev Account := Kind → String → String → List (String × Dict)

def Account.put (A : Account) (k : Kind) (d p : String) (l : List (String × Dict)) : Account := fun k' d' p' =>
  if k' = k ∧ d' = d ∧ p' = p then l else A k' d' p'

/-- an equation told again keeps its position, a new one is the last -/
def told (l : List (String × Dict)) (n : String) (x : Dict) : List (String × Dict) :=
  if n ∈ l.map (·.1) then l.map (fun p => if p.1 = n then (n, x) else p) else l ++ [(n, x)]

/-- without the equation of that name -/
def without (l : List (String × Dict)) (n : String) : List (String × Dict) := l.filter (fun p => p.1 ≠ n)

inductive Verb | create | list | delete | tell
deriving DecidableEq

/-- the twelve commands -/
def cmdOf : Kind → Verb → Cmd
  | .bulk, .create => .equation
  | .bulk, .list => .equationList
  | .bulk, .delete => .deleteEquation
  | .bulk, .tell => .equationCommand
  | .contact, .create => .contactEquation
  | .contact, .list => .contactEquationList
  | .contact, .delete => .deleteContactEquation
  | .contact, .tell => .contactEquationCommand
  | .interface, .create => .interfaceEquation
  | .interface, .list => .interfaceEquationList
  | .interface, .delete => .deleteInterfaceEquation
  | .interface, .tell => .interfaceEquationCommand

/-- is there such a place -/
def There (W : World) (d p : String) : Kind → Prop
  | .bulk => ∃ r, region? W d p = some r
  | .contact => ∃ c, contact? W d p = some c
  | .interface => ∃ i, interface? W d p = some i

/-- why an equation is refused: a model that is not there (of some of the options), an unknown update or type -/
inductive Refused (W : World) (g : String → String) : Kind → Prop
  | nodeModel (n) (hn : n = "node_model" ∨ n = "time_node_model") (h : g n ≠ "") (r) (hr : region? W (g "device") (g "region") = some r)
      (hm : r.hasNode (g n) = false) : Refused W g .bulk
  | edgeModel (n) (hn : n = "edge_model" ∨ n = "edge_volume_model") (h : g n ≠ "") (r) (hr : region? W (g "device") (g "region") = some r)
      (hm : r.hasEdge (g n) = false) : Refused W g .bulk
  | update (h : g "variable_update" ∉ ["default", "log_damp", "positive"]) : Refused W g .bulk
  | interfaceModel (i) (hi : interface? W (g "device") (g "interface") = some i)
      (h : g "interface_model" = "" ∨ i.hasModel (g "interface_model") = false) : Refused W g .interface
  | type (h : g "type" ∉ ["continuous", "fluxterm", "hybrid"]) : Refused W g .interface

/-- the name is that of an equation there is, or no equation there has the variable -/
def Free (A : Account) (g : String → String) : Prop :=
  g "name" ∈ (A .bulk (g "device") (g "region")).map (·.1) ∨
  ∀ n x, (n, x) ∈ A .bulk (g "device") (g "region") → x "variable_name" ≠ some (g "variable_name")

/-- an equation that is told again is told with its variable -/
def Keeps (A : Account) (g : String → String) : Prop :=
  ∀ x, (g "name", x) ∈ A .bulk (g "device") (g "region") → x "variable_name" = some (g "variable_name")

/-- What a command does to the account and answers. `exact`: no equation of a region was told again with another variable so far. After that
the program may refuse to create or to delete the equations of regions (`used`, `lost`) at the wrong moments. -/
inductive Does (exact : Bool) (W : World) (A : Account) (g : String → String) (k : Kind) : Verb → Account → Res → Bool → Prop
  | away (v) (h : ¬ There W (g "device") (g k.place) k) (res) (hr : res = .raised ∨ ∃ m, res = .err m) : Does exact W A g k v A res exact
  | refused (ht : There W (g "device") (g k.place) k) (h : Refused W g k) (m) (hm : m ≠ "") : Does exact W A g k .create A (.err m) exact
  | created (ht : There W (g "device") (g k.place) k) (h : ¬ Refused W g k) (free : k = .bulk → exact = true → Free A g)
      (exact') (he : exact' = true ↔ exact = true ∧ (k = .bulk → Keeps A g)) :
      Does exact W A g k .create (A.put k (g "device") (g k.place) (told (A k (g "device") (g k.place)) (g "name") (dict k g))) .empty exact'
  | used (hk : k = .bulk) (ht : There W (g "device") (g k.place) k) (h : ¬ Refused W g k) (free : exact = true → ¬ Free A g) :
      Does exact W A g k .create A .raised exact
  | listBulk (hk : k = .bulk) (ht : There W (g "device") (g k.place) k) :
      Does exact W A g k .list A (.names ((A k (g "device") (g k.place)).map (·.1))) exact
  | listSorted (hk : k ≠ .bulk) (ht : There W (g "device") (g k.place) k) (s) (hp : s.Perm ((A k (g "device") (g k.place)).map (·.1)))
      (hs : s.Pairwise (· ≤ ·)) : Does exact W A g k .list A (.names s) exact
  | deleted (ht : There W (g "device") (g k.place) k) (hn : g "name" ∈ (A k (g "device") (g k.place)).map (·.1)) :
      Does exact W A g k .delete (A.put k (g "device") (g k.place) (without (A k (g "device") (g k.place)) (g "name"))) .empty exact
  | lost (hk : k = .bulk) (ht : There W (g "device") (g k.place) k) (hn : g "name" ∈ (A k (g "device") (g k.place)).map (·.1))
      (he : exact = false) : Does exact W A g k .delete A .raised exact
  | tells (ht : There W (g "device") (g k.place) k) (x) (hx : (g "name", x) ∈ A k (g "device") (g k.place)) (m) (hl : reads m = x)
      (hn : (m.map (·.1)).Nodup) : Does exact W A g k .tell A (.map m) exact
  | unknown (v) (hv : v = .delete ∨ v = .tell) (ht : There W (g "device") (g k.place) k)
      (hn : g "name" ∉ (A k (g "device") (g k.place)).map (·.1)) (m) (hm : m ≠ "") : Does exact W A g k v A (.err m) exact

/-- a call -/
structure Call where
  kind : Kind
  verb : Verb
  texts : String → String

/-- the answers to a history of calls go by the account -/
inductive Story : Bool → World → Account → List Call → Prop
  | done (exact W A) : Story exact W A []
  | call (exact exact' W A A') (c : Call) (cs) (h : Does exact W A c.texts c.kind c.verb A' (act (cmdOf c.kind c.verb) W c.texts).2 exact')
      (hs : Story exact' (act (cmdOf c.kind c.verb) W c.texts).1 A' cs) : Story exact W A (c :: cs)

/-- the program before there are equations -/
def Fresh (W : World) : Prop :=
  (∀ d p r, region? W d p = some r → r.eqs = [] ∧ r.idx = [] ∧ r.var = [] ∧ r.num = 0) ∧
  (∀ d p c, contact? W d p = some c → c.eqs = []) ∧
  (∀ d p i, interface? W d p = some i → i.eqs = [])

end Verif.EqCmd
