import json
mods=["Verif.NN.PropsSameTrainer"]
props=[["C83","When the trainers agree","A BatchTrainer whose batch size is the number of samples (at least 2), without decay, is a Trainer: after every sequence of calls the networks and the iteration counter are the same, and it fails in the same call with the same error. A call of a MomentumTrainer moves every weight by a fixed share of the step a Trainer takes from the same state on the same data, plus momentum times the learning rate along the direction it remembers; the first call takes exactly the share 1 - momentum, so that without momentum it is the call of a Trainer. Without momentum, call number n takes the whole step of a Trainer in the output layer and 1/n of it in a hidden layer, so from the second call on hidden layers agree only where the Trainer would change nothing.","all sequences of data sets, networks, trainers and momenta","all call sequences and real-valued data",["src/trainer/batchtrainer.cpp:feeddata","src/trainer/trainer.cpp:feeddata","src/trainer/momentumtrainer.cpp:feeddata","src/trainer/momentumtrainer.cpp:initmomentum"]]]
notes={"C83":["proved","Dense layers. Without decay for BatchTrainer (it applies the decay after the step, Trainer before)."]}
json.dump({"mods":mods,"props":props,"notes":notes,"design":"(C83) induction over the calls with C41_batches; the momentum call and the trainer call share the passes, the updates are compared entry by entry."},open('/tmp/gen/r83.json','w'))
