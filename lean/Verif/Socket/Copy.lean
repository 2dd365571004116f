import Verif.Socket.Lemmas
/-! Copies of a `stream_socket`: each has buffers of its own, but the connection is one. -/

namespace Verif.Socket

/-- A copy made when the socket was `s`, by the copy constructor that the compiler makes for `/repo/src/network/socket.h:53-116`, seen when the connection is in the state it has
in `now`: `sock`, `connected` and the buffers are those of `s`, what is under way in the kernel is shared. -/
def copyOf (s now : St) : St := { s with incoming := now.incoming, wire := now.wire, calls := now.calls }

end Verif.Socket
