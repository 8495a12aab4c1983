import json
r={"mods":["Verif.NN.PropsRest"],"props":[["C100","A learning-rate schedule with a finite sum brings training to rest",
"Before each training step the user sets the rate with setlrate; the rates have a finite sum (1, 1/2, 1/4, ...; any exponential decay). Then training never fails and every single weight of every layer converges to a limit, whatever the batches, as long as inputs are bounded and labels lie between 0 and 1, the hidden activations are bounded with bounded derivatives, and the output is sigmoid with cross-entropy or quadratic cost, or softmax; with or without regularisation. The decay option of the trainers is not such a schedule: it lowers the rate once, and feeding one sample for ever carries a weight beyond every bound for every choice of its parameters.",
"all dense networks of any depth with those settings, all summable sequences of rates, all infinite sequences of batches; all decay parameters r0 > 0, k, step",
"a limit of infinitely many steps on arbitrary data; a test observes finitely many steps.",
["src/neuralnet.cpp: setlrate, forwardprop, backprop, update","src/layer/layer.cpp: backprop, update","src/trainer/trainer.cpp: feeddata"]]],
"notes":{"C100":["proved","C100_rest (every weight converges), C100_decay_option (Trainer's decay does not achieve this). The activations and outputs that qualify are those of C99_activations and C99_outputs. Exact real arithmetic."]},
"design":"(C100) by induction from the output backwards, weights that start within M stay within M + S G where S is the sum of the rates and G bounds the data part of the gradient; so step t moves every weight by at most K r_t, the weights form Cauchy sequences. The decay option: one-unit network of C99, rates bounded below."}
json.dump(r,open('/tmp/gen/r100.json','w'))
