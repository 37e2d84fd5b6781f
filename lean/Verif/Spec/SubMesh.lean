import Verif.Model.SubMesh

/-!
# Specification of the interfaces between submeshes

Everything is phrased in terms of the parent mesh: which submesh owns an element, which parent face
a boundary element of a submesh lies on.
-/

namespace Verif.SubMesh.Spec

open Verif.SubMesh

/-- Parent element `e` belongs to submesh `k`. -/
def Owns (subs : List Sub) (k : Nat) (e : Int) : Prop :=
  ∃ s, subs[k]? = some s ∧ ∃ x ∈ s.elemMap, (x : Int) = e

/-- Boundary element `b` of submesh `m` lies on face `f` of the parent mesh. -/
def OnFace (faceMaps : List (List Int)) (bes : List (List BE)) (m b f : Nat) : Prop :=
  ∃ l be fm, bes[m]? = some l ∧ l[b]? = some be ∧ faceMaps[m]? = some fm ∧
    fm[be.face]? = some (f : Int)

/-- Face `f` of the parent mesh separates submeshes `i` and `j`. -/
def Between (pm : Parent) (subs : List Sub) (f i j : Nat) : Prop :=
  i ≠ j ∧ ∃ fc, pm.faces[f]? = some fc ∧
    ((Owns subs i fc.e0 ∧ Owns subs j fc.e1) ∨ (Owns subs i fc.e1 ∧ Owns subs j fc.e0))

/-- No boundary element of the parent mesh lies on face `f`. -/
def Free (pm : Parent) (f : Nat) : Prop := ∀ q ∈ pm.bdr, q.1 ≠ f

/-- What the submeshes delivered by MFEM satisfy.  `g` is the largest boundary attribute of the
parent mesh. -/
structure WellFormed (pm : Parent) (subs : List Sub) (faceMaps : List (List Int))
    (bes : List (List BE)) (g : Int) : Prop where
  /-- one face map and one list of boundary elements for every submesh -/
  faceMaps_length : faceMaps.length = subs.length
  bes_length : bes.length = subs.length
  /-- submeshes do not share elements -/
  disjoint : ∀ e k k', Owns subs k e → Owns subs k' e → k = k'
  /-- every boundary element lies on a face of the parent mesh; its adjacent element is the one side
  of that face that belongs to the submesh -/
  onFace : ∀ (m b : Nat) l be, bes[m]? = some l → l[b]? = some be →
    ∃ f fc s x, OnFace faceMaps bes m b f ∧ pm.faces[f]? = some fc ∧ subs[m]? = some s ∧
      s.elemMap[be.elem]? = some x ∧
      (((x : Int) = fc.e0 ∧ ¬ Owns subs m fc.e1) ∨ ((x : Int) = fc.e1 ∧ ¬ Owns subs m fc.e0))
  /-- a submesh has at most one boundary element on each face -/
  onceFace : ∀ m b b' f, OnFace faceMaps bes m b f → OnFace faceMaps bes m b' f → b = b'
  /-- a face between two submeshes is on the boundary of both -/
  covered : ∀ f i j, Between pm subs f i j → ∃ b, OnFace faceMaps bes i b f
  /-- boundary elements carry the generated attribute exactly on faces without boundary element in
  the parent mesh -/
  attr : ∀ (m b f : Nat) l be, bes[m]? = some l → l[b]? = some be → OnFace faceMaps bes m b f →
    (be.attr = g + 1 ↔ Free pm f)

/-- The interfaces found are correct.  `bes` are the boundary elements before, `st` the result. -/
structure Correct (pm : Parent) (subs : List Sub) (faceMaps : List (List Int))
    (bes : List (List BE)) (g : Int) (st : IState) : Prop where
  /-- one list of interfaces for every port, none of them empty -/
  length : st.infos.length = st.ports.length
  nonempty : ∀ l ∈ st.infos, l ≠ []
  /-- ports are numbered upwards from the first attribute not used by the parent mesh (`g + 1` is
  the attribute of generated boundaries) and list the smaller submesh first -/
  port : ∀ (p : Nat) (P : PortInfo), st.ports[p]? = some P → P.mesh1 < P.mesh2 ∧ P.mesh2 < subs.length ∧
    P.portAttr = g + 2 + p ∧ P.attr1 = P.portAttr ∧ P.attr2 = P.portAttr
  /-- one port for each pair of submeshes -/
  pair_unique : ∀ (p q : Nat) (P Q : PortInfo), st.ports[p]? = some P → st.ports[q]? = some Q →
    P.mesh1 = Q.mesh1 → P.mesh2 = Q.mesh2 → p = q
  /-- every interface of a port joins the two boundary elements of its submeshes on one common face
  between them, with the face information of the right side -/
  sound : ∀ (p : Nat) (P : PortInfo) (l : List InterfaceInfo) (I : InterfaceInfo),
    st.ports[p]? = some P → st.infos[p]? = some l → I ∈ l →
    ∃ f fc, OnFace faceMaps bes P.mesh1 I.be1 f ∧ OnFace faceMaps bes P.mesh2 I.be2 f ∧
      Between pm subs f P.mesh1 P.mesh2 ∧ Free pm f ∧ pm.faces[f]? = some fc ∧
      ((Owns subs P.mesh1 fc.e0 ∧ I.inf1 = fc.inf0 ∧ I.inf2 = fc.inf1) ∨
        (Owns subs P.mesh1 fc.e1 ∧ I.inf1 = fc.inf1 ∧ I.inf2 = fc.inf0))
  /-- every face between two submeshes without parent boundary element is an interface of the port
  of the pair -/
  complete : ∀ f i j, Between pm subs f i j → Free pm f → i < j →
    ∃ (p : Nat) (P : PortInfo) (l : List InterfaceInfo) (I : InterfaceInfo),
      st.ports[p]? = some P ∧ P.mesh1 = i ∧ P.mesh2 = j ∧ st.infos[p]? = some l ∧ I ∈ l ∧
      OnFace faceMaps bes i I.be1 f ∧ OnFace faceMaps bes j I.be2 f
  /-- no face is used twice, in one port or in different ports -/
  unique : ∀ (p q : Nat) (P Q : PortInfo) (l l' : List InterfaceInfo) (a b : Nat)
    (I J : InterfaceInfo) (f : Nat),
    st.ports[p]? = some P → st.ports[q]? = some Q → st.infos[p]? = some l → st.infos[q]? = some l' →
    l[a]? = some I → l'[b]? = some J → OnFace faceMaps bes P.mesh1 I.be1 f →
    OnFace faceMaps bes Q.mesh1 J.be1 f → p = q ∧ a = b
  /-- boundary elements of an interface carry the attribute of its port -/
  attr_set : ∀ (p : Nat) (P : PortInfo) (l : List InterfaceInfo) (I : InterfaceInfo),
    st.ports[p]? = some P → st.infos[p]? = some l → I ∈ l →
    (∃ l1 b1, st.bes[P.mesh1]? = some l1 ∧ l1[I.be1]? = some b1 ∧ b1.attr = P.portAttr) ∧
    (∃ l2 b2, st.bes[P.mesh2]? = some l2 ∧ l2[I.be2]? = some b2 ∧ b2.attr = P.portAttr)
  /-- all other boundary elements are unchanged, and faces and adjacent elements never change -/
  attr_kept : ∀ (m b : Nat) l be, bes[m]? = some l → l[b]? = some be →
    ∃ l' be', st.bes[m]? = some l' ∧ l'.length = l.length ∧ l'[b]? = some be' ∧
      be'.face = be.face ∧ be'.elem = be.elem ∧
      ((∀ (p : Nat) (P : PortInfo) (l : List InterfaceInfo) (I : InterfaceInfo),
        st.ports[p]? = some P → st.infos[p]? = some l → I ∈ l →
        ¬ (P.mesh1 = m ∧ I.be1 = b) ∧ ¬ (P.mesh2 = m ∧ I.be2 = b)) → be'.attr = be.attr)

/-- `φ` tells which face of the parent mesh each face of the submesh is: the faces of an element
correspond one by one to the faces of its parent element, and every face belongs to an element. -/
structure FaceCorrespondence (pm : Parent) (sm : Sub) (φ : Nat → Nat) : Prop where
  elem : ∀ (i : Nat) sel, sm.elemEdges[i]? = some sel → ∃ (peid : Nat) (pel : List Nat),
    sm.elemMap[i]? = some peid ∧ pm.elemEdges[peid]? = some pel ∧
    ∀ (j s : Nat), sel[j]? = some s → s < sm.numFaces ∧ pel[j]? = some (φ s)
  all : ∀ s, s < sm.numFaces → ∃ sel ∈ sm.elemEdges, s ∈ sel

/-- What a two-dimensional parent mesh and its submeshes satisfy before the code of this file runs.
`φ k` is the face correspondence of submesh `k`. -/
structure WellFormed2D (pm : Parent) (subs : List Sub) (φ : Nat → Nat → Nat) (g : Int) : Prop where
  correspondence : ∀ (k : Nat) sm, subs[k]? = some sm → FaceCorrespondence pm sm (φ k)
  /-- boundary elements of the parent mesh lie on its faces and their attributes are at most `g` -/
  parent_bdr : ∀ q ∈ pm.bdr, q.1 < pm.faces.length ∧ q.2 ≤ g
  disjoint : ∀ e k k', Owns subs k e → Owns subs k' e → k = k'
  onFace : ∀ (m b : Nat) sm be, subs[m]? = some sm → sm.bes[b]? = some be →
    ∃ fc x, be.face < sm.numFaces ∧ pm.faces[φ m be.face]? = some fc ∧
      sm.elemMap[be.elem]? = some x ∧
      (((x : Int) = fc.e0 ∧ ¬ Owns subs m fc.e1) ∨ ((x : Int) = fc.e1 ∧ ¬ Owns subs m fc.e0))
  onceFace : ∀ (m b b' : Nat) sm be be', subs[m]? = some sm → sm.bes[b]? = some be →
    sm.bes[b']? = some be' → φ m be.face = φ m be'.face → b = b'
  covered : ∀ f i j, Between pm subs f i j →
    ∃ sm be, subs[i]? = some sm ∧ be ∈ sm.bes ∧ φ i be.face = f

/-- The boundary elements `bes'` are those of the submesh with only the attribute changed: to the
attribute of a boundary element of the parent mesh on the same face if there is one, to `g + 1`
otherwise. -/
def Inherited (pm : Parent) (sm : Sub) (φ : Nat → Nat) (g : Int) (bes' : List BE) : Prop :=
  bes'.length = sm.bes.length ∧
  ∀ (b : Nat) be, sm.bes[b]? = some be → ∃ be', bes'[b]? = some be' ∧ be'.face = be.face ∧
    be'.elem = be.elem ∧
    ((∃ q ∈ pm.bdr, q.1 = φ be.face ∧ be'.attr = q.2) ∨
      (Free pm (φ be.face) ∧ be'.attr = g + 1))

end Verif.SubMesh.Spec
