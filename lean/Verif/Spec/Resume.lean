import Verif.Model.RawNode
import Verif.Spec.RaftLog
import Verif.Spec.ConfChange

/-! # What a node can be (re)started from -/

namespace Craft
open Spec

/-- A storage an earlier incarnation can have left: a well-formed log, a hard state whose commit index lies in it (or none
yet), and in its snapshot a configuration some node reported. -/
structure Storage.Resumable (st : Storage) (cfg : TConfig) : Prop where
  wf : st.WF
  hard : st.hardState = {} ∨ (st.view.base ≤ st.hardState.commit ∧ st.hardState.commit ≤ st.view.last)
  conf : ∃ t : Tracker, t.config = cfg ∧ t.confState = st.snapshot.metadata.confState ∧ ConfInv t.config t.progress ∧
    ¬ Member t.config 0 ∧ (t.config.voters.incoming ≠ [] ∨ t.config = {})

/-- The settings `Config::Validate` accepts, with an election timeout that fits an `int`. -/
structure Config.Sane (c : Config) (st : Storage) : Prop where
  id : c.id ≠ 0
  heartbeat : 0 < c.heartbeatTick
  election : c.heartbeatTick < c.electionTick
  election_int : c.electionTick < 2 ^ 31
  inflight : 0 < c.maxInflightMsgs
  lease : c.readOnlyOption = .leaseBased → c.checkQuorum = true
  applied : c.applied = 0 ∨ (st.view.base ≤ c.applied ∧ c.applied ≤ st.hardState.commit)

end Craft
