import Verif.Model.Version
/-!
# Named parts of releases and versions
-/

namespace Verif

namespace Release

/-- /repo/versions/segments/release.py 192-201. -/
def setMajor (r : Release) (value : Int) : Except PyErr Release := r.setAt 0 value
/-- /repo/versions/segments/release.py 203-212. -/
def setMinor (r : Release) (value : Int) : Except PyErr Release := r.setAt 1 value
/-- /repo/versions/segments/release.py 214-223. -/
def setMicro (r : Release) (value : Int) : Except PyErr Release := r.setAt 2 value
/-- /repo/versions/segments/release.py 225-236. -/
def setPatch (r : Release) (value : Int) : Except PyErr Release := r.setAt 2 value
/-- /repo/versions/segments/release.py 133-139. -/
def patch (r : Release) : Except PyErr Int := r.getAt 2
/-- /repo/versions/segments/release.py 319-325. -/
def hasMajor (r : Release) : Bool := r.hasAt 0
/-- /repo/versions/segments/release.py 327-333. -/
def hasMinor (r : Release) : Bool := r.hasAt 1
/-- /repo/versions/segments/release.py 335-341. -/
def hasMicro (r : Release) : Bool := r.hasAt 2
/-- /repo/versions/segments/release.py 343-351. -/
def hasPatch (r : Release) : Bool := r.hasAt 2
/-- /repo/versions/segments/release.py 353-359. -/
def hasExtra (r : Release) : Bool := r.hasAt 3

end Release

namespace Version

/-- /repo/versions/version.py 320-329. -/
def setMajor (v : Version) (value : Int) : Except PyErr Version := do .ok (v.setRelease (← v.release.setMajor value))
/-- /repo/versions/version.py 331-340. -/
def setMinor (v : Version) (value : Int) : Except PyErr Version := do .ok (v.setRelease (← v.release.setMinor value))
/-- /repo/versions/version.py 342-351. -/
def setMicro (v : Version) (value : Int) : Except PyErr Version := do .ok (v.setRelease (← v.release.setMicro value))
/-- /repo/versions/version.py 353-364. -/
def setPatch (v : Version) (value : Int) : Except PyErr Version := do .ok (v.setRelease (← v.release.setPatch value))
/-- /repo/versions/version.py 247-253. -/
def patch (v : Version) : Except PyErr Int := v.release.patch
/-- /repo/versions/version.py 255-258. -/
def extra (v : Version) : List Int := v.release.extra
/-- /repo/versions/version.py 471-477. -/
def hasMajor (v : Version) : Bool := v.release.hasMajor
/-- /repo/versions/version.py 479-485. -/
def hasMinor (v : Version) : Bool := v.release.hasMinor
/-- /repo/versions/version.py 487-493. -/
def hasMicro (v : Version) : Bool := v.release.hasMicro
/-- /repo/versions/version.py 495-503. -/
def hasPatch (v : Version) : Bool := v.release.hasPatch
/-- /repo/versions/version.py 505-511. -/
def hasExtra (v : Version) : Bool := v.release.hasExtra

end Version
end Verif
