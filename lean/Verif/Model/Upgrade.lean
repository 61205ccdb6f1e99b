import Verif.Model.FullStream

/-!
# Upgrading a connection to TLS (STARTTLS)

`impl From<Stream> for TcpStream`, `/repo/src/stream.rs:167-176` (feature `expose_stream`): "Useful when a TCP stream needs to be
upgraded to a TLS one."  The stream is consumed; its owner does the handshake on the socket, makes a new stream with `Stream::tls`, and
goes on with the same client or server.  The stream is owned, so no future of it is pending.

Simplified: the handshake itself.  `tls` is the connection after it.
-/

namespace ImapFlow

/-- `Stream::tls(connector.connect(domain, TcpStream::from(stream)).await?)`, or `accept` instead of `connect`: the buffers of the stream
are dropped, the client or server is kept.  `none` if a future of the stream is pending or the stream cannot be used any more. -/
def FullStream.upgrade {K σ : Type} (c : FullStream K σ) (tls : Tls K) : Option (FullStream K σ) :=
  match c.ctl with
  | .at .idle => some (.secure tls c.state)
  | _ => none

end ImapFlow
