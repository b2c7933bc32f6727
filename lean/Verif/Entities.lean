import Verif.MapFile
import Verif.Vec

/-!
Model of the entity classes of /repo/redeclipse/entities/__init__.py, /repo/redeclipse/entities/model.py
and /repo/redeclipse/entities/weapon.py. Positions are vectors with exact coordinates; the default
position `(0, 0, 0)` (a tuple, which makes `PlayerSpawn()` raise) is not modelled. Attributes are ints.
-/

namespace Verif

/-- `ivec3(*v)` (vector/re.py): the raw coordinates. -/
def V.ivec (v : V) : PyF × PyF × PyF := (.fin v.x, .fin v.y, .fin v.z)

/-- `[] if links is None else links` (entities/__init__.py 52, 111, 126, 142, 158, 174). -/
def optLinks (l : Option (List ℤ)) : List ℤ := l.getD []
/-- `[0, 0, 0] if reserved is None else reserved` (entities/__init__.py 53, 112, 127, 143, 159, 175). -/
def optReserved (l : Option (List ℤ)) : List ℤ := l.getD [0, 0, 0]

/-- `PlayerSpawn` (entities/__init__.py 100-112): the position is multiplied as it is. -/
def playerSpawn (xyz : V) (team yaw pitch modes muts id : ℤ) (links reserved : Option (List ℤ)) : Ent :=
  ⟨(xyz.mul 4).ivec, 3, [.int team, .int yaw, .int pitch, .int modes, .int muts, .int id], optLinks links,
    optReserved reserved⟩

/-- `Sunlight` (entities/__init__.py 115-127): the position is used as it is. -/
def sunlight (xyz : V) (yaw pitch red green blue offset flare flarescale : ℤ)
    (links reserved : Option (List ℤ)) : Ent :=
  ⟨xyz.ivec, 8, [.int yaw, .int pitch, .int red, .int green, .int blue, .int offset, .int flare, .int flarescale],
    optLinks links, optReserved reserved⟩

/-- `Light` (entities/__init__.py 130-143). -/
def light (xyz : V) (radius red green blue flare flarescale : ℤ) (links reserved : Option (List ℤ)) : Ent :=
  ⟨(xyz.fine.mul 4).ivec, 1, [.int radius, .int red, .int green, .int blue, .int flare, .int flarescale],
    optLinks links, optReserved reserved⟩

/-- `Pusher` (entities/__init__.py 146-159). -/
def pusher (xyz : V) (yaw pitch force maxrad minrad type : ℤ) (links reserved : Option (List ℤ)) : Ent :=
  ⟨(xyz.fine.mul 4).ivec, 13, [.int yaw, .int pitch, .int force, .int maxrad, .int minrad, .int type],
    optLinks links, optReserved reserved⟩

/-- `TeamFlag` (entities/__init__.py 162-175). -/
def teamFlag (xyz : V) (team yaw pitch modes muts id : ℤ) (links reserved : Option (List ℤ)) : Ent :=
  ⟨(xyz.fine.mul 4).ivec, 14, [.int team, .int yaw, .int pitch, .int modes, .int muts, .int id],
    optLinks links, optReserved reserved⟩

/-- `MapModel` (entities/model.py 6-19). -/
def mapModel (xyz : V) (type yaw pitch roll blend scale flags colour palette palindex spinyaw spinpitch spinroll : ℤ)
    (links reserved : Option (List ℤ)) : Ent :=
  ⟨(xyz.mul 4).ivec, 2, [.int type, .int yaw, .int pitch, .int roll, .int blend, .int scale, .int flags,
      .int colour, .int palette, .int palindex, .int spinyaw, .int spinpitch, .int spinroll],
    optLinks links, optReserved reserved⟩

/-- `Weapon` (entities/weapon.py 6-20). -/
def weapon (xyz : V) (type flags modes muts id : ℤ) (links reserved : Option (List ℤ)) : Ent :=
  ⟨(xyz.mul 4).ivec, 9, [.int type, .int flags, .int modes, .int muts, .int id],
    optLinks links, optReserved reserved⟩

/-- `Grenade` (entities/weapon.py 23-37). -/
def grenade (xyz : V) (flags modes muts id : ℤ) (links reserved : Option (List ℤ)) : Ent :=
  ⟨(xyz.mul 4).ivec, 9, [.int 9, .int flags, .int modes, .int muts, .int id],
    optLinks links, optReserved reserved⟩

/-- `Shotgun` (entities/weapon.py 40-54). -/
def shotgun (xyz : V) (flags modes muts id : ℤ) (links reserved : Option (List ℤ)) : Ent :=
  ⟨(xyz.mul 4).ivec, 9, [.int 3, .int flags, .int modes, .int muts, .int id],
    optLinks links, optReserved reserved⟩

end Verif
