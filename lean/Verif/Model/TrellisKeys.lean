/-
The pairs of vertices of the hybrid grid that are compared when the modes are sorted: /repo/src/trellis_poly_parallel.tpp 470-509.
-/
import Verif.Model.TrellisWire
import Verif.Model.PermutationTable

namespace Brille.TrellisWire

open Brille.Tetra

/-- `NodeContainer::vertices`, trellis_node.hpp 557-566, with `CubeNode::vertices`, 100-104, and `PolyNode::vertices`, 236-241 -/
def Container.vertices (c : Container) (i : Nat) : List Nat :=
  match c.get i with
  | some (.cube vi) => (List.finRange 8).map vi
  | some (.poly tets) => polyVertices tets
  | none => []

/-- `NodeContainer::vertices_per_tetrahedron`, trellis_node.hpp 568-572 -/
def Container.verticesPerTetrahedron (c : Container) (i : Nat) : List (Fin 4 → Nat) :=
  match c.get i with
  | some (.poly tets) => tets.map fun t => t.vi
  | _ => []

/-- `is_poly`, trellis_node.hpp 525 -/
def Container.isPoly (c : Container) (i : Nat) : Bool :=
  match c.nodes[i]? with
  | some (.poly, _) => true
  | _ => false

/-- `is_null`, trellis_node.hpp 527-530; a number that is too large is not used -/
def Container.isNull (c : Container) (i : Nat) : Bool :=
  match c.nodes[i]? with
  | some (.cube, _) | some (.poly, _) => false
  | _ => true

/-- `collect_keys_node`, trellis_poly_parallel.tpp 490-509 -/
def PolyTrellis.collectKeysNode (T : PolyTrellis) (i : Nat) : List Nat :=
  if T.nodes.isNull i then []
  else if T.nodes.isPoly i then
    (T.nodes.verticesPerTetrahedron i).flatMap fun t => PermTable.keysFromIndices T.vertices.length ((List.finRange 4).map t)
  else PermTable.keysFromIndices T.vertices.length (T.nodes.vertices i)

/-- `collect_keys`, trellis_poly_parallel.tpp 470-487, when the nodes get their turn in an order; a set is a list here -/
def PolyTrellis.collectKeys (T : PolyTrellis) (order : List Nat) : List Nat := order.flatMap T.collectKeysNode

end Brille.TrellisWire
